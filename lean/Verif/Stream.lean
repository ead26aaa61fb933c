import Verif.ModbusStandardProps
import Verif.UaConnectionProps
/-!
# Sockets under the links: writes that are cut short and events that come once

The models of the clients, sessions and connections take what a read yields from their environment.  Here the bytes between two
links are followed: what the kernel takes from the writer, when it arrives, when `epoll` reports it and how much each event reads.
All descriptors are registered edge-triggered (Link.cpp, Acceptor.cpp: `EPOLLIN | EPOLLET`), so an event is reported when bytes
arrive and not again for bytes that were left unread.  The kernel and the network are specified, not modelled: bytes arrive in
order, unchanged, at any time and in any portions.
-/

namespace Uscada.Stream

open Modbus (Rx)

/-- One direction of an open TCP connection. -/
structure Pipe where
  /-- the bytes that the kernel has taken from the writer -/
  sent : List UInt8
  /-- how many of them have arrived at the reader's end -/
  arrived : Nat
  /-- how many have been read -/
  taken : Nat
  /-- an event is pending for the reader's descriptor -/
  edge : Bool
deriving DecidableEq, Repr

namespace Pipe

/-- `Link::send`, Link.cpp:101-113, on an open link; `w` is what `::write` answers: -1 or the number of bytes taken. -/
def send (p : Pipe) (data : List UInt8) (w : Option Nat) : Pipe × Int :=
  match w with
  | none => (p, -1)
  | some n => ({ p with sent := p.sent ++ data.take n }, 1)

/-- Bytes that have arrived and have not been read. -/
def unread (p : Pipe) : List UInt8 := (p.sent.take p.arrived).drop p.taken

/-- Further `n` bytes arrive; no more can arrive than were sent. -/
def arrive (p : Pipe) (n : Nat) : Pipe :=
  if 0 < n ∧ p.arrived + n ≤ p.sent.length then { p with arrived := p.arrived + n, edge := true } else p

/-- `Link::receive`, Link.cpp:115-133, on an open link of a peer that keeps the connection open: `EAGAIN` if nothing is there. -/
def receive (p : Pipe) (cap : Nat) : Rx × Pipe :=
  if 0 < cap ∧ p.unread = [] then (.na, p)
  else (.ok (p.unread.take cap), { p with taken := p.taken + (p.unread.take cap).length })

/-- Everything that was sent has arrived and no event is pending. -/
def Quiet (p : Pipe) : Prop := p.edge = false ∧ p.arrived = p.sent.length

/-- Everything that was sent has been read. -/
structure Idle (p : Pipe) : Prop where
  arrived : p.arrived = p.sent.length
  taken : p.taken = p.sent.length

end Pipe

/-- What happens at the reader's end. -/
inductive Op where
  /-- bytes arrive -/
  | arrive (n : Nat)
  /-- the event loop takes the pending event (Epoll.cpp:55-73); `n` bytes arrive before the handler reads -/
  | event (n : Nat)
deriving DecidableEq, Repr

/-- The owner of a link: the size of the read it makes when it is told about data (`none`: it does not read), and what it does
with the result. -/
structure Reader (σ : Type) where
  wants : σ → Option Nat
  on : σ → Rx → Exec σ

/-- Link.cpp:140-175 for events that report data: the handler runs once and reads at most once. -/
def go {σ : Type} (R : Reader σ) (s : σ) (p : Pipe) : List Op → Exec (σ × Pipe)
  | [] => .ok (s, p)
  | .arrive n :: ops => go R s (p.arrive n) ops
  | .event n :: ops =>
    if p.edge = false then go R s p ops
    else
      let q := Pipe.arrive { p with edge := false } n
      match R.wants s with
      | none => do
        let s ← R.on s .na
        go R s q ops
      | some cap => do
        let s ← R.on s (q.receive cap).1
        go R s (q.receive cap).2 ops

/-- A session as a reader (ModbusSession.cpp:84-104): it reads into the rest of its buffer unless more than 260 bytes are there. -/
def session : Reader (Modbus.Session × List Modbus.SOut) where
  wants x := if x.1.link ∧ x.1.st ≠ .init ∧ x.1.opened ∧ x.1.pdu.len ≤ Modbus.maxAduLen then some x.1.pdu.capacity else none
  on x rx := do
    let (s, o) ← x.1.step (.data rx)
    pure (s, x.2 ++ o)

/-- A buffer of an OPC UA connection as a reader (UaTcpConnection.cpp:176-216, OpcUaConnection.cpp:71-111), with the chunks it
has passed on; the buffer is emptied afterwards (`receivePreaction`, UaTcpConnection.cpp:171-174). -/
def chunks : Reader (Ua.Buf × List (List UInt8)) where
  wants x := if 1024 < x.1.size then none else some x.1.capacity
  on x rx := do
    let (r, b) ← Ua.receive true rx x.1
    match r with
    | .noerror => pure (b, x.2)
    | .done => pure (b.reset, x.2 ++ [b.bytes])
    | .error => Exec.throws

/-! ## Facts about pipes -/

namespace Pipe

/-- The reader has read `x` of the bytes `t` that were sent after `base`, and nothing unread is without an event. -/
structure At (base t x : List UInt8) (p : Pipe) : Prop where
  sent : p.sent = base ++ t
  taken : p.taken = base.length + x.length
  lo : p.taken ≤ p.arrived
  hi : p.arrived ≤ p.sent.length
  edge : p.edge = false → p.arrived = p.taken

theorem At.arrive {base t x : List UInt8} {p : Pipe} (h : At base t x p) (n : Nat) : At base t x (p.arrive n) := by
  unfold Pipe.arrive
  split
  · rename_i hn
    exact ⟨h.sent, h.taken, by have := h.lo; dsimp only; omega, hn.2, by simp⟩
  · exact h

/-- What is unread is a part of what follows. -/
theorem At.unread {base t x y : List UInt8} {p : Pipe} (h : At base t x p) (ht : t = x ++ y) :
    p.unread = y.take (p.arrived - p.taken) := by
  have h1 := h.lo
  have h2 := h.taken
  unfold Pipe.unread
  rw [h.sent, ht, List.drop_take, h2, ← List.append_assoc, List.drop_append, List.drop_eq_nil_of_le (by simp)]
  simp

end Pipe

theorem deliver {σ : Type} {R : Reader σ} {base t : List UInt8} {I : List UInt8 → σ → Prop}
    (hw : ∀ x y s, I x s → t = x ++ y → y ≠ [] → ∃ cap, R.wants s = some cap ∧ y.length ≤ cap)
    (hz : ∀ s, I t s → R.wants s ≠ some 0)
    (hna : ∀ x s, I x s → ∃ s', R.on s .na = .ok s' ∧ I x s')
    (hd : ∀ x d y s, I x s → t = x ++ d ++ y → d ≠ [] → ∃ s', R.on s (.ok d) = .ok s' ∧ I (x ++ d) s')
    (ops : List Op) {s : σ} {p : Pipe} {x y : List UInt8} (hp : p.At base t x) (ht : t = x ++ y) (hI : I x s) :
    ∃ s' p' x' y', go R s p ops = .ok (s', p') ∧ I x' s' ∧ t = x' ++ y' ∧ p'.At base t x' := by
  induction ops generalizing s p x y with
  | nil => exact ⟨s, p, x, y, rfl, hI, ht, hp⟩
  | cons op ops ih =>
    cases op with
    | arrive n => exact ih (hp.arrive n) ht hI
    | event n =>
      simp only [go]
      by_cases he : p.edge = false
      · rw [if_pos he]
        exact ih hp ht hI
      rw [if_neg he]
      -- the event is taken: what is unread may be without an event until the read
      have hq : ∃ q, q = Pipe.arrive { p with edge := false } n ∧ q.sent = base ++ t ∧ q.taken = base.length + x.length ∧
          q.taken ≤ q.arrived ∧ q.arrived ≤ q.sent.length := by
        refine ⟨_, rfl, ?_⟩
        unfold Pipe.arrive
        split
        · rename_i hn
          exact ⟨hp.sent, hp.taken, by have := hp.lo; dsimp only; omega, hn.2⟩
        · exact ⟨hp.sent, hp.taken, hp.lo, hp.hi⟩
      obtain ⟨q, hqe, q1, q2, q3, q4⟩ := hq
      rw [← hqe]
      have hu : q.unread = y.take (q.arrived - q.taken) :=
        Pipe.At.unread (p := { q with edge := true }) ⟨q1, q2, q3, q4, by simp⟩ ht
      have hlen : base.length + t.length = base.length + x.length + y.length := by rw [ht]; simp; omega
      have hsl : q.sent.length = base.length + t.length := by rw [q1]; simp
      match hwant : R.wants s with
      | none =>
        have hy : y = [] := by
          apply Classical.byContradiction
          intro hy
          obtain ⟨cap, h1, _⟩ := hw x y s hI ht hy
          rw [hwant] at h1
          cases h1
        subst hy
        obtain ⟨s', h1, h2⟩ := hna x s hI
        dsimp only
        rw [h1, Exec.ok_bind]
        exact ih ⟨q1, q2, q3, q4, fun _ => by simp at hlen; omega⟩ ht h2
      | some cap =>
        dsimp only
        have hcap : y ≠ [] → y.length ≤ cap := by
          intro hy
          obtain ⟨cap', h1, h2⟩ := hw x y s hI ht hy
          rw [hwant] at h1
          cases h1
          exact h2
        have hpos : 0 < cap := by
          by_cases hy : y = []
          · subst hy
            have : x = t := by simpa using ht.symm
            subst this
            have := hz s hI
            rw [hwant] at this
            apply Nat.pos_of_ne_zero
            intro h0
            exact this (by rw [h0])
          · have := hcap hy
            have := List.length_pos_iff.2 hy
            omega
        by_cases hu0 : q.unread = []
        · have hr : q.receive cap = (.na, q) := by
            unfold Pipe.receive
            rw [if_pos ⟨hpos, hu0⟩]
          rw [hr]
          obtain ⟨s', h1, h2⟩ := hna x s hI
          dsimp only
          rw [h1, Exec.ok_bind]
          refine ih ⟨q1, q2, q3, q4, fun _ => ?_⟩ ht h2
          rw [hu] at hu0
          rcases List.take_eq_nil_iff.1 hu0 with h | h
          · omega
          · subst h
            simp at hlen
            omega
        · have hfull : q.unread.take cap = q.unread := by
            apply List.take_of_length_le
            rw [hu, List.length_take]
            by_cases hy : y = []
            · subst hy; simp
            · have := hcap hy; omega
          have hul : q.unread.length = q.arrived - q.taken := by
            rw [hu, List.length_take]
            omega
          have hr : q.receive cap = (.ok q.unread, { q with taken := q.taken + q.unread.length }) := by
            unfold Pipe.receive
            rw [if_neg (by simp [hu0]), hfull]
          rw [hr]
          have ht' : t = x ++ q.unread ++ y.drop (q.arrived - q.taken) := by
            rw [hu, List.append_assoc, List.take_append_drop, ht]
          obtain ⟨s', h1, h2⟩ := hd x q.unread _ s hI ht' hu0
          dsimp only
          rw [h1, Exec.ok_bind]
          refine ih ⟨q1, ?_, ?_, q4, fun _ => ?_⟩ ht' h2
          · dsimp only; rw [q2, List.length_append]; omega
          · dsimp only; omega
          · dsimp only; omega

/-- When everything has arrived and no event is pending, everything has been read. -/
theorem Pipe.At.all {base t x y : List UInt8} {p : Pipe} (h : p.At base t x) (ht : t = x ++ y) (hq : p.Quiet) : x = t := by
  have h1 := h.edge hq.1
  have h2 := hq.2
  have h3 := h.taken
  have h4 : p.sent.length = base.length + t.length := by rw [h.sent]; simp
  have h5 : t.length = x.length + y.length := by rw [ht]; simp
  have : y = [] := List.eq_nil_of_length_eq_zero (by omega)
  rw [ht, this, List.append_nil]

/-- A pipe on which everything was read, after a write of which the kernel took `n` bytes. -/
theorem Pipe.Idle.send {p : Pipe} (h : p.Idle) (w : List UInt8) (n : Nat) : (p.send w (some n)).1.At p.sent (w.take n) [] := by
  refine ⟨rfl, ?_, ?_, ?_, fun _ => ?_⟩
  · simpa [Pipe.send] using h.taken
  · simp [Pipe.send, h.taken, h.arrived]
  · simp [Pipe.send, h.arrived]
  · simp [Pipe.send, h.taken, h.arrived]

end Uscada.Stream
