import Verif.ModbusTimeProps
import Verif.ModbusExchange
import Verif.StateExec
/-!
# Property C111: the Modbus client comes back

Specification: whatever has happened to a started client – links that failed, peers that closed, answers that were wrong or did not
arrive, requests that cannot be sent – once connections are accepted again, the requests that were waiting get their
answers in order and the client is connected again after a number of events that depends on the number of these requests
only; and the second request after that, at the latest, is carried out and its answer reported.
-/

namespace Uscada.Modbus

open AduStorage (Pending pendingOf)

namespace Client

/-- Specification: what happens next to a client when connections are accepted and written to but no bytes arrive.  An
open link in the making is confirmed; otherwise time passes. -/
def calm (c : Client) : Ev := if c.st = .connect ∧ c.opened = true then .connected else .timer true true

/-- A number of such events. -/
def calms : Nat → Client → Exec (Client × List COut)
  | 0, c => .ok (c, [])
  | n + 1, c => do
    let (c, o) ← c.step c.calm
    let (c, os) ← calms n c
    pure (c, o ++ os)

/-- The number of events left until the client is connected. -/
def distance (c : Client) : Nat :=
  match c.st with
  | .init | .connected => 0
  | .connect => if c.opened then 1 else 3
  | .backoff => 2
  | .send => 2 * c.pending.length + if c.opened then 1 else 3
  | .receive => 2 * c.pending.length + if c.opened then 0 else 2

/-- A client that has a closed link and does not know. -/
def Unaware (c : Client) : Prop := c.opened = false ∧ c.st ≠ .connect ∧ c.st ≠ .backoff

theorem distance_le (c : Client) : c.distance ≤ 2 * c.pending.length + 3 := by
  unfold distance
  repeat' split
  all_goals omega

theorem calm_ok (c : Client) : EvOk c.calm := by
  unfold calm
  split <;> trivial

/-- One event brings the client nearer. -/
theorem calm_step {c : Client} (hi : Inv c) (h0 : c.st ≠ .init) (h1 : c.st ≠ .connected) :
    ∃ c' o, c.step c.calm = .ok (c', o) ∧ c'.st ≠ .init ∧ c'.distance < c.distance ∧ (c'.Unaware → c.Unaware) := by
  obtain ⟨st, pending, pdu, timer, opened⟩ := c
  obtain ⟨i1, i2, i3, i4, i5, i6, i7⟩ := hi
  cases st with
  | init => exact absurd rfl h0
  | connected => exact absurd rfl h1
  | connect =>
    have ht : timer = true := i3 (.inl rfl)
    subst ht
    cases opened with
    | true => exact ⟨_, _, rfl, by simp [onConnected, transit, enter, exit],
        by simp [onConnected, transit, enter, exit, distance], by simp [onConnected, transit, enter, exit, Unaware]⟩
    | false => exact ⟨_, _, rfl, by simp [transit, enter, exit],
        by simp [transit, enter, exit, distance], by simp [transit, enter, exit, Unaware]⟩
  | backoff =>
    have ht : timer = true := i3 (.inr rfl)
    subst ht
    exact ⟨_, _, rfl, by simp [transit, enter, exit], by simp [transit, enter, exit, distance],
      by simp [transit, enter, exit, Unaware]⟩
  | receive =>
    have ht : timer = true := i2 (.inr rfl)
    subst ht
    obtain ⟨hp, _⟩ := i6 rfl
    cases pending with
    | nil => exact absurd rfl hp
    | cons p ps =>
      refine ⟨_, _, rfl, by simp [transit, enter, exit], ?_, ?_⟩
      · cases opened <;> simp [transit, enter, exit, distance] <;> omega
      · simp [transit, enter, exit, Unaware]
  | send =>
    have ht : timer = true := i2 (.inl rfl)
    subst ht
    obtain ⟨c1, o1, s, hs⟩ := send_safe { st := .send, pending, pdu, timer := false, opened } true i4
    obtain ⟨e1, e2, e3, e4, e5⟩ := send_spec hs
    have hstep : Client.step { st := .send, pending, pdu, timer := true, opened } (.timer true true) =
        onTimer { st := .send, pending, pdu, timer := false, opened } true true := rfl
    have hcalm : Client.calm { st := .send, pending, pdu, timer := true, opened } = .timer true true := rfl
    rw [hcalm, hstep]
    simp only [onTimer, hs, Exec.ok_bind]
    obtain ⟨st1, pend1, pdu1, tm1, op1⟩ := c1
    simp only at e1 e2 e3 e4
    subst e1; subst e2; subst e3; subst e4
    rcases e5 with ⟨k1, rfl, rfl, k2⟩ | ⟨p, ps, k1, ⟨rfl, k2, k3⟩ | ⟨rfl, k2, k3⟩ | ⟨rfl, k2, k3⟩⟩
    · refine ⟨_, _, rfl, by simp [transit, enter, exit], ?_, ?_⟩
      · cases op1 <;> simp [transit, enter, exit, distance]
      · simp [transit, enter, exit, Unaware]
    · simp only at k1 k3
      subst k1; subst k3
      refine ⟨_, _, rfl, by simp, ?_, ?_⟩
      · cases op1 <;> simp [distance]
      · simp [Unaware]
    · simp only at k1 k3
      subst k1; subst k3
      refine ⟨_, _, rfl, by simp [transit, enter, exit], ?_, ?_⟩
      · cases op1 <;> simp [transit, enter, exit, distance]
      · simp [transit, enter, exit, Unaware]
    · simp only at k1 k3
      subst k1; subst k3
      refine ⟨_, _, rfl, by simp [fail, drain, transit, enter, exit], ?_, ?_⟩
      · cases op1 <;> simp [fail, drain, transit, enter, exit, distance] <;> omega
      · simp [fail, drain, transit, enter, exit, Unaware]

theorem account_calm {c c' : Client} {o : List COut} (h : Account c o c' c.calm) :
    ids o ++ c'.pending.map pid = c.pending.map pid := by
  revert h
  unfold calm
  split <;> exact id

theorem calms_back {c : Client} (hi : Inv c) (h0 : c.st ≠ .init) :
    ∃ n c' o, n ≤ c.distance ∧ calms n c = .ok (c', o) ∧ Inv c' ∧ c'.st = .connected ∧ ids o = c.pending.map pid ∧
      (c'.opened = true ∨ c.Unaware) := by
  generalize hd : c.distance = d
  induction d using Nat.strongRecOn generalizing c with
  | _ d ih =>
    by_cases h1 : c.st = .connected
    · refine ⟨0, c, [], by omega, rfl, hi, h1, ?_, ?_⟩
      · rw [hi.idle (by simp [busy, h1])]; rfl
      · cases ho : c.opened with
        | true => exact .inl rfl
        | false => exact .inr ⟨ho, by simp [h1], by simp [h1]⟩
    · obtain ⟨c1, o1, e1, e2, e3, e4⟩ := calm_step hi h0 h1
      obtain ⟨hi1, ha⟩ := step_spec hi (calm_ok c) e1
      obtain ⟨n, c', o, k1, k2, k3, k4, k5, k6⟩ := ih c1.distance (by omega) hi1 e2 rfl
      refine ⟨n + 1, c', o1 ++ o, by omega, ?_, k3, k4, ?_, ?_⟩
      · simp only [calms, e1, k2, Exec.ok_bind, Exec.pure_eq]
      · rw [ids_append, k5]
        exact account_calm ha
      · exact k6.imp id e4

/-- C111: from every state of a started client, after at most two events for every waiting request and three more, the client is
connected, and exactly the requests that were waiting have been answered, in their order. -/
theorem C111_comes_back (m : Mem) (es : List Ev) (he : CallersOk es) (c : Client) (tr : Trace)
    (h : (create m).run es = .ok (c, tr)) (h0 : c.st ≠ .init) :
    ∃ n c' o, n ≤ 2 * c.pending.length + 3 ∧ calms n c = .ok (c', o) ∧ c'.st = .connected ∧ c'.pending = [] ∧
      ids o = c.pending.map pid := by
  have hi := run_inv (inv_create m) he h
  obtain ⟨n, c', o, k1, k2, k3, k4, k5, _⟩ := calms_back hi h0
  exact ⟨n, c', o, Nat.le_trans k1 c.distance_le, k2, k4, k3.idle (by simp [busy, k4]), k5⟩

/-- A connected client takes a request. -/
theorem connected_takes {c : Client} (hi : Inv c) (hs : c.st = .connected) {r : CallerReq} (hr : CallerOk r)
    (hn : r.numBytes ≤ 260) :
    c.step (.req r) = .ok ({ c with st := .send, timer := true, pending := [pendingOf r] }, []) := by
  have hp := hi.idle (by simp [busy, hs])
  obtain ⟨st, pending, pdu, timer, opened⟩ := c
  simp only at hs hp
  subst hs; subst hp
  obtain ⟨d, h1, h2⟩ := hr
  have hn' : r.numBytes ≤ maxAduLen := hn
  simp [step, storePush, AduStorage.capacity, hn', h1, h2, onReq, transit, enter, exit]

/-- A client that does not know that its link is closed learns it from the next request. -/
theorem unaware_learns {c : Client} (hi : Inv c) (hs : c.st = .send) (hop : c.opened = false) {p : Pending}
    (hp : c.pending = [p]) (hS : Exchange.Sendable p) :
    ∃ c', c.step (.timer true true) = .ok (c', [rspError p.clientId p.transactId]) ∧ c'.st = .backoff := by
  have ht := hi.armed (.inl hs)
  obtain ⟨st, pending, pdu, timer, opened⟩ := c
  simp only at hs hp ht hop
  subst hs; subst hp; subst ht; subst hop
  obtain ⟨b, ok, e1, _, e2, e3⟩ := encodeReq_eq (fun _ => 0) (Client.reqOfPending p)
    (Nat.le_of_eq hS.data.symm) hS.bytes
  have hok := e2.2 (Exchange.reqOk_of hS)
  subst hok
  refine ⟨{ st := .backoff, pending := [], pdu, timer := true, opened := false }, ?_, rfl⟩
  simp only [step, onTimer, send_body, e1, Exec.ok_bind, Exec.pure_eq]
  simp [fail, drain, transit, enter, exit]

/-- After the first request the link is open, whether this request was answered or not. -/
theorem probed {c : Client} (hi : Inv c) (hs : c.st = .connected) {r : CallerReq} (hr : CallerOk r)
    (hS : Exchange.Sendable (pendingOf r)) :
    ∃ c1 n c2 o, c.step (.req r) = .ok (c1, []) ∧ n ≤ 5 ∧ calms n c1 = .ok (c2, o) ∧ Inv c2 ∧ c2.st = .connected ∧
      c2.opened = true ∧ ids o = [(r.clientId, r.transactId)] := by
  have e1 := connected_takes hi hs hr hS.bytes
  obtain ⟨hi1, _⟩ := step_spec (e := .req r) hi hr e1
  refine ⟨{ c with st := .send, timer := true, pending := [pendingOf r] }, ?_⟩
  by_cases ho : c.opened = true
  · obtain ⟨n, c', o, k1, k2, k3, k4, k5, k6⟩ := calms_back hi1 (by simp)
    refine ⟨n, c', o, e1, ?_, k2, k3, k4, ?_, k5⟩
    · exact Nat.le_trans k1 (Client.distance_le _)
    · rcases k6 with k6 | k6
      · exact k6
      · exact absurd k6.1 (by simp [ho])
  · have ho : c.opened = false := by simpa using ho
    obtain ⟨c2, f1, f2⟩ := unaware_learns hi1 rfl ho rfl hS
    obtain ⟨hi2, _⟩ := step_spec (e := .timer true true) hi1 trivial f1
    obtain ⟨n, c', o, k1, k2, k3, k4, k5, k6⟩ := calms_back hi2 (by simp [f2])
    have hd : c2.distance = 2 := by simp [distance, f2]
    have hp2 := hi2.idle (by simp [busy, f2])
    refine ⟨n + 1, c', [rspError r.clientId r.transactId] ++ o, e1, by omega, ?_, k3, k4, ?_, ?_⟩
    · have hc : Client.calm { c with st := .send, timer := true, pending := [pendingOf r] } = .timer true true := by
        simp [calm]
      simp only [calms, hc, f1, k2, Exec.ok_bind, Exec.pure_eq]
      rfl
    · rcases k6 with k6 | k6
      · exact k6
      · exact absurd f2 k6.2.2
    · rw [ids_append, k5, hp2]
      rfl

/-- C111: from every state of a started client, once connections are accepted again, the client is connected after a bounded
number of events; whatever becomes of the first request after that, it is answered after at most five events; and the
second request is carried out by every server session that has just begun, and its caller is told the answer of the
application.  Missing: the first request (`C76_first_request_violated`), and as for `C67_exchange_partial`. -/
theorem C111_serves_again_partial (m : Mem) (es : List Ev) (he : CallersOk es) (c : Client) (tr : Trace)
    (h : (create m).run es = .ok (c, tr)) (h0 : c.st ≠ .init) (r q : CallerReq) (hr : CallerOk r) (hq : CallerOk q)
    (hrS : Exchange.Sendable (pendingOf r)) (hqS : Exchange.Sendable (pendingOf q)) (s : Session) (hs : s.Fresh)
    (app : ReqView → AppRsp) (happ : Exchange.Suits q.func (app (Exchange.meaning (pendingOf q))))
    (happ' : (app (Exchange.meaning (pendingOf q))).transactId = q.transactId) :
    ∃ n1 c1 o1 c2 n2 c3 o3 c4 c5 s5, n1 ≤ 2 * c.pending.length + 3 ∧ calms n1 c = .ok (c1, o1) ∧
      ids o1 = c.pending.map pid ∧
      c1.step (.req r) = .ok (c2, []) ∧ n2 ≤ 5 ∧ calms n2 c2 = .ok (c3, o3) ∧ ids o3 = [(r.clientId, r.transactId)] ∧
      c3.step (.req q) = .ok (c4, []) ∧
      Exchange.trades app 1 c4 s = .ok (c5, s5, [Exchange.told (pendingOf q) (app (Exchange.meaning (pendingOf q)))]) ∧
      Exchange.Ready c5 [] ∧ s5.Fresh := by
  have hi := run_inv (inv_create m) he h
  obtain ⟨n1, c1, o1, k1, k2, k3, k4, k5, _⟩ := calms_back hi h0
  obtain ⟨c2, n2, c3, o3, l1, l2, l3, l4, l5, l6, l7⟩ := probed k3 k4 hr hrS
  have l8 := connected_takes l4 l5 hq hqS.bytes
  obtain ⟨c5, s5, p1, p2, p3⟩ := Exchange.C67_batch_partial app [pendingOf q] (by simpa using hqS)
    (by simpa using ⟨happ, happ'⟩) (c := { c3 with st := .send, timer := true, pending := [pendingOf q] }) (s := s)
    ⟨rfl, l6, rfl, rfl⟩ hs
  exact ⟨n1, c1, o1, c2, n2, c3, o3, _, c5, s5, Nat.le_trans k1 c.distance_le, k2, k5, l1, l2, l3, l7, l8, p1, p2, p3⟩

/-- C111: a client that knows of the failure, or has lost nothing, carries out the first request as well.  Missing: a client that has a
closed link and does not know, and as for `C67_exchange_partial`. -/
theorem C111_aware_partial (m : Mem) (es : List Ev) (he : CallersOk es) (c : Client) (tr : Trace)
    (h : (create m).run es = .ok (c, tr)) (h0 : c.st ≠ .init)
    (hk : c.opened = true ∨ c.st = .connect ∨ c.st = .backoff) (q : CallerReq) (hq : CallerOk q)
    (hqS : Exchange.Sendable (pendingOf q)) (s : Session) (hs : s.Fresh)
    (app : ReqView → AppRsp) (happ : Exchange.Suits q.func (app (Exchange.meaning (pendingOf q))))
    (happ' : (app (Exchange.meaning (pendingOf q))).transactId = q.transactId) :
    ∃ n1 c1 o1 c4 c5 s5, n1 ≤ 2 * c.pending.length + 3 ∧ calms n1 c = .ok (c1, o1) ∧ ids o1 = c.pending.map pid ∧
      c1.step (.req q) = .ok (c4, []) ∧
      Exchange.trades app 1 c4 s = .ok (c5, s5, [Exchange.told (pendingOf q) (app (Exchange.meaning (pendingOf q)))]) ∧
      Exchange.Ready c5 [] ∧ s5.Fresh := by
  have hi := run_inv (inv_create m) he h
  obtain ⟨n1, c1, o1, k1, k2, k3, k4, k5, k6⟩ := calms_back hi h0
  have hop : c1.opened = true := by
    rcases k6 with k6 | ⟨u1, u2, u3⟩
    · exact k6
    · rcases hk with hk | hk | hk
      · rw [hk] at u1; cases u1
      · exact absurd hk u2
      · exact absurd hk u3
  have l8 := connected_takes k3 k4 hq hqS.bytes
  obtain ⟨c5, s5, p1, p2, p3⟩ := Exchange.C67_batch_partial app [pendingOf q] (by simpa using hqS)
    (by simpa using ⟨happ, happ'⟩) (c := { c1 with st := .send, timer := true, pending := [pendingOf q] }) (s := s)
    ⟨rfl, hop, rfl, rfl⟩ hs
  exact ⟨n1, c1, o1, _, c5, s5, Nat.le_trans k1 c.distance_le, k2, k5, l8, p1, p2, p3⟩

/-! ## Examples -/

/-- A request of two holding registers. -/
def twoRegisters (t : Nat) : CallerReq :=
  { clientId := 1, transactId := t, func := 3, addr := 9, startItem := 4, numItems := 2, numBytes := 0, data := some [] }

/-- A history: connected, two requests, the first of them sent, then the peer closes the connection. -/
def cutOff : List Ev :=
  [.start true, .connected, .req (twoRegisters 1), .req (twoRegisters 2), .timer true true, .linkError]

/-- The client then waits for an answer on a closed link; it gives up the first request, fails to send the second one, connects, and is connected after four
events. -/
example : (do
    let (c, _) ← (create fun _ => 0).run cutOff
    let (c', o) ← calms 4 c
    pure ([c.st, c'.st], [c.opened, c'.opened], ids o)) =
      .ok ([.receive, .connected], [false, true], [(1, 1), (1, 2)]) := by
  decide +kernel

/-- The next request is carried out by a new session. -/
example : (do
    let (c, _) ← (create fun _ => 0).run cutOff
    let (c, _) ← calms 4 c
    let (c, _) ← c.step (.req (twoRegisters 3))
    let (s, _) ← (Session.create (fun _ => 0) sampleReq).step .start
    let (_, _, rs) ← Exchange.trades Exchange.sampleApp 1 c s
    pure rs) = .ok [⟨1, 3, true, 0, [1, 2, 3, 4]⟩] := by
  decide +kernel

/-- A connected client whose link fails does not know: the first request is answered with failure after a single event, the
second one is carried out. -/
example : (do
    let (c, _) ← (create fun _ => 0).run [.start true, .connected, .linkError]
    let (c, _) ← c.step (.req (twoRegisters 1))
    let (c, o) ← calms 3 c
    let (c, _) ← c.step (.req (twoRegisters 2))
    let (s, _) ← (Session.create (fun _ => 0) sampleReq).step .start
    let (_, _, rs) ← Exchange.trades Exchange.sampleApp 1 c s
    pure (o, rs)) = .ok ([rspError 1 1], [⟨1, 2, true, 0, [1, 2, 3, 4]⟩]) := by
  decide +kernel

end Client

end Uscada.Modbus
