import Verif.SelfTestCases
/-!
# C68: the built-in self-test succeeds
-/

namespace Uscada.SelfTest

open Uscada.Modbus Uscada.Controller Uscada.Modbus.Exchange
open AduStorage (Pending)

/-! ## The client -/

/-- Connected, nothing to do, no timer. -/
structure Idle (c : Client) : Prop where
  st : c.st = .connected
  opened : c.opened = true
  timer : c.timer = false
  pending : c.pending = []

def CliOk (c : Client) (l : List Pending) : Prop := Ready c l ∨ (l = [] ∧ Idle c)

/-- The client waits for the answer to `p`. -/
structure Waits (c : Client) (p : Pending) (ps : List Pending) : Prop where
  fresh : c.Fresh p
  timer : c.timer = true
  pending : c.pending = p :: ps

theorem client_refuses {c : Client} {p : Pending} {ps : List Pending} (h : Ready c (p :: ps))
    (hR : ¬ ReqOk (Client.reqOfPending p)) (hd : p.data.length = p.numBytes) (hb : p.numBytes ≤ 260) :
    ∃ c1, c.step (.timer true true) = .ok (c1, [.rsp ⟨p.clientId, p.transactId, false, 0, []⟩]) ∧ Ready c1 ps := by
  obtain ⟨st, pending, pdu, timer, opened⟩ := c
  obtain ⟨h1, h2, h3, h4⟩ := h
  simp only at h1 h2 h3 h4
  subst h1; subst h2; subst h3; subst h4
  obtain ⟨b, ok, e1, _, e2, e3⟩ := encodeReq_eq (fun _ => 0) (Client.reqOfPending p) (Nat.le_of_eq hd.symm) hb
  have hok : ok = false := by
    cases ok
    · rfl
    · exact absurd (e2.1 rfl) hR
  subst hok
  refine ⟨Client.mk .send ps pdu true true, ?_, ⟨rfl, rfl, rfl, rfl⟩⟩
  simp only [Client.step, if_true, Client.onTimer, Client.send_body, e1, Exec.ok_bind]
  rfl

theorem client_idles {c : Client} (h : Ready c []) : ∃ c1, c.step (.timer true true) = .ok (c1, []) ∧ Idle c1 := by
  obtain ⟨st, pending, pdu, timer, opened⟩ := c
  obtain ⟨h1, h2, h3, h4⟩ := h
  simp only at h1 h2 h3 h4
  subst h1; subst h2; subst h3; subst h4
  exact ⟨Client.mk .connected [] pdu false true, rfl, ⟨rfl, rfl, rfl, rfl⟩⟩

theorem client_times_out {c : Client} {p : Pending} {ps : List Pending} (h : Waits c p ps) :
    ∃ c1, c.step (.timer true true) = .ok (c1, [.rsp ⟨p.clientId, p.transactId, false, 0, []⟩]) ∧ Ready c1 ps := by
  obtain ⟨st, pending, pdu, timer, opened⟩ := c
  obtain ⟨⟨h1, h2, _, _, _⟩, h3, h4⟩ := h
  simp only at h1 h2 h3 h4
  subst h1; subst h2; subst h3; subst h4
  exact ⟨Client.mk .send ps pdu true true, rfl, ⟨rfl, rfl, rfl, rfl⟩⟩

theorem client_takes {c : Client} {l : List Pending} (h : CliOk c l) {r : CallerReq} {d : List UInt8} (hl : l.length < 64)
    (hb : r.numBytes ≤ 260) (hd : r.data = some d) (hn : r.numBytes ≤ d.length) :
    ∃ c1, c.step (.req r) = .ok (c1, []) ∧ Ready c1 (l ++ [AduStorage.pendingOf r]) := by
  have hcap : AduStorage.capacity = 64 := rfl
  have hA : maxAduLen = 260 := rfl
  have hpush : ∀ l : List Pending, l.length < 64 → Client.storePush l r = .ok (l ++ [AduStorage.pendingOf r], true) := by
    intro l hl
    unfold Client.storePush
    rw [if_pos ⟨by omega, by omega⟩, hd]
    simp only
    rw [if_pos hn]
  obtain ⟨st, pending, pdu, timer, opened⟩ := c
  rcases h with ⟨h1, h2, h3, h4⟩ | ⟨rfl, h1, h2, h3, h4⟩
  · simp only at h1 h2 h3 h4
    subst h1; subst h2; subst h3; subst h4
    refine ⟨Client.mk .send (pending ++ [AduStorage.pendingOf r]) pdu true true, ?_, ⟨rfl, rfl, rfl, rfl⟩⟩
    simp only [Client.step, hpush _ hl, Exec.ok_bind, if_true]
    rfl
  · simp only at h1 h2 h3 h4
    subst h1; subst h2; subst h3; subst h4
    refine ⟨Client.mk .send ([] ++ [AduStorage.pendingOf r]) pdu true true, ?_, ⟨rfl, rfl, rfl, rfl⟩⟩
    simp only [Client.step, hpush [] (by simp), Exec.ok_bind, if_true]
    rfl

/-! ## The dispatcher -/

theorem mod_client {d : Dispatcher} {c c' : Client} {e : Client.Ev} {o : List COut} (hc : d.clients 0 = some c)
    (he : Dispatcher.isOwnEvent e = true) (hs : c.step e = .ok (c', o)) :
    d.step (.client 0 e) = .ok ({ d with clients := Dispatcher.upd d.clients 0 c' }, o.map (.client 0)) := by
  simp only [Dispatcher.step, hc, he, if_true, hs, Exec.ok_bind, Exec.pure_eq]

theorem server_sess {v : Server} {k : Nat} (hk : k < 256) {s' : Session} {o : List SOut} {e : Session.Ev} (he : e ≠ .start)
    (hs : (v.sess k).step e = .ok (s', o)) (hr : SOut.released ∉ o) :
    v.step (.sess k e) = .ok ({ v with sess := Server.set v.sess k s' }, o.map fun x => (k, x)) := by
  have hm : Server.maxNumSession = 256 := rfl
  cases e with
  | start => exact absurd rfl he
  | _ =>
    simp only [Server.step]
    rw [if_neg (by omega), hs]
    simp only [Exec.ok_bind, Exec.pure_eq, Server.absorb, if_neg hr]

theorem mod_sess {d : Dispatcher} {v : Server} {k : Nat} (hv : d.servers 0 = some v) (hk : k < 256) {s' : Session} {o : List SOut}
    {rx : Rx} (hs : (v.sess k).step (.data rx) = .ok (s', o)) (hr : SOut.released ∉ o) :
    d.step (.server 0 (.sess k (.data rx))) =
      .ok ({ d with servers := Dispatcher.upd d.servers 0 { v with sess := Server.set v.sess k s' } }, o.map (.session 0 k)) := by
  simp only [Dispatcher.step, hv, Dispatcher.isOwnSessionEvent, if_true, server_sess hk (by simp) hs hr, Exec.ok_bind, Exec.pure_eq,
    List.map_map]
  rfl

theorem mod_aduRsp {d : Dispatcher} {v : Server} {k : Nat} (hn : d.numServers = 1) (hv : d.servers 0 = some v) (hk : k < 256)
    {s' : Session} {o : List SOut} {r : AppRsp} (hs : (v.sess k).step (.rsp r true) = .ok (s', o)) (hr : SOut.released ∉ o) :
    d.step (.aduRsp 0 k r true) =
      .ok ({ d with servers := Dispatcher.upd d.servers 0 { v with sess := Server.set v.sess k s' } }, o.map (.session 0 k)) := by
  simp only [Dispatcher.step, Dispatcher.aduRsp]
  rw [if_neg (by omega), hv]
  simp only [server_sess hk (by simp) hs hr, Exec.ok_bind, Exec.pure_eq, List.map_map]
  rfl

/-- The message with the answer to a test case. -/
def msg (rnd : Nat → UInt8) (i : Nat) : Controller.Ev := .modbusClientAduRsp (ans rnd i)

def mine (i : Nat) : Bool := kind i ≠ .foreign

theorem creq_fits (rnd : Nat → UInt8) {i : Nat} (h : i < 16) :
    (creq rnd i).numBytes ≤ 260 ∧ (creq rnd i).data = some (kase rnd i).data ∧ (creq rnd i).numBytes ≤ (kase rnd i).data.length ∧
    (mine i = true → (creq rnd i).clientId = 0) ∧
    (mine i = false → (CRsp.mk (creq rnd i).clientId (creq rnd i).transactId false 0 []) = ans rnd i) := by
  have hb := kase_bounds rnd h
  refine ⟨?_, rfl, Nat.le_refl _, ?_, ?_⟩
  · show (kase rnd i).data.length ≤ 260
    omega
  · intro hm
    have := foreign_client rnd h
    unfold mine at hm
    simp only [decide_eq_true_eq] at hm
    have h0 := mt this.1 hm
    omega
  · intro hm
    unfold mine at hm
    simp only [ne_eq, decide_not, Bool.not_eq_false', decide_eq_true_eq] at hm
    have hp := pend_eq rnd h
    have e1 : (creq rnd i).clientId = (pend rnd i).clientId := rfl
    have e2 : (creq rnd i).transactId = (pend rnd i).transactId := rfl
    rw [e1, e2, hp]
    unfold ans
    rw [if_neg (by rw [hm]; decide)]

theorem batch_run (rnd : Nat → UInt8) : ∀ (is : List Nat), (∀ i ∈ is, i < 16) → ∀ {d : Dispatcher} {c : Client} {l : List Pending},
    d.numClients = 1 → d.clients 0 = some c → CliOk c l → l.length + is.length ≤ 64 →
    ∃ d' c' o, d.batch (is.map (creq rnd)) = .ok (d', o) ∧ d'.numClients = 1 ∧ d'.numServers = d.numServers ∧
      d'.servers = d.servers ∧ d'.clients 0 = some c' ∧ CliOk c' (l ++ (is.filter mine).map (pend rnd)) ∧
      o.filterMap toCtlOf = (is.filter (fun i => !mine i)).map (msg rnd) ∧ o.filterMap upOf = [] ∧ o.filterMap downOf = [] := by
  intro is
  induction is with
  | nil =>
    intro _ d c l hn hc hok _
    exact ⟨d, c, [], rfl, hn, rfl, rfl, hc, by simpa using hok, rfl, rfl, rfl⟩
  | cons i is ih =>
    intro hlt d c l hn hc hok hlen
    have hi := hlt i (by simp)
    obtain ⟨f1, f2, f3, f4, f5⟩ := creq_fits rnd hi
    simp only [List.length_cons] at hlen
    by_cases hm : mine i = true
    · obtain ⟨c1, g1, g2⟩ := client_takes hok (r := creq rnd i) (by omega) f1 f2 f3
      have hitem : d.item (creq rnd i) = .ok ({ d with clients := Dispatcher.upd d.clients 0 c1 }, []) := by
        unfold Dispatcher.item
        rw [if_neg (by rw [f4 hm]; omega), f4 hm, hc]
        simp only [g1, Exec.ok_bind, Exec.pure_eq, List.map_nil]
      obtain ⟨d', c', o, k1, k2, k3, k4, k5, k6, k7, k8, k9⟩ := ih (fun j hj => hlt j (by simp [hj]))
        (d := { d with clients := Dispatcher.upd d.clients 0 c1 }) (c := c1) (l := l ++ [pend rnd i]) hn rfl (.inl g2)
        (by simp; omega)
      refine ⟨d', c', o, ?_, k2, k3, k4, k5, ?_, ?_, k8, k9⟩
      · simp only [List.map_cons, Dispatcher.batch, hitem, Exec.ok_bind, k1, Exec.pure_eq, List.nil_append]
      · simpa [hm] using k6
      · simpa [hm] using k7
    · have hf : kind i = .foreign := by
        unfold mine at hm
        simpa using hm
      have hm : mine i = false := by simpa using hm
      have hge := (foreign_client rnd hi).2 hf
      have hitem : d.item (creq rnd i) = .ok (d, [.reject (ans rnd i)]) := by
        unfold Dispatcher.item
        rw [if_pos (by omega), f5 hm]
      obtain ⟨d', c', o, k1, k2, k3, k4, k5, k6, k7, k8, k9⟩ := ih (fun j hj => hlt j (by simp [hj])) hn hc hok (by omega)
      refine ⟨d', c', .reject (ans rnd i) :: o, ?_, k2, k3, k4, k5, ?_, ?_, ?_, ?_⟩
      · simp only [List.map_cons, Dispatcher.batch, hitem, Exec.ok_bind, k1, Exec.pure_eq, List.singleton_append]
      · simpa [hm] using k6
      · simp [hm, toCtlOf, k7, msg]
      · exact k8
      · exact k9

/-! ## The invariant -/

/-- Where the transaction under way is: its number, what follows it, the forwarded request in the mailbox of the controller,
and a weight that bounds how much is still to be done. -/
inductive Stage (rnd : Nat → UInt8) (k : Nat) (p : Plant) (s : Session) (c : Client) (wr : Nat → Bool) (todo : List Nat) :
    List Nat → List Controller.Ev → Nat → Prop
  | none (hc : CliOk c (todo.map (pend rnd))) (hs : s.Fresh) (h1 : p.toMod = []) (h2 : p.up = []) (h3 : p.down = []) :
      Stage rnd k p s c wr todo [] [] (if c.st = .connected then 0 else 1)
  | up {i : Nat} (hk : kind i = .answered ∨ kind i = .silent) (hc : Waits c (pend rnd i) (todo.map (pend rnd))) (hs : s.Fresh)
      (h1 : p.toMod = []) (h2 : p.up = [reqFrame (Client.reqOfPending (pend rnd i))]) (h3 : p.down = []) :
      Stage rnd k p s c wr todo [i] [] 6
  | fwd {i : Nat} {f : FwdReq} (hk : kind i = .answered ∨ kind i = .silent) (hc : Waits c (pend rnd i) (todo.map (pend rnd)))
      (hs : Asked s (pend rnd i)) (hf : f.view = meaning (pend rnd i)) (h1 : p.toMod = []) (h2 : p.up = []) (h3 : p.down = []) :
      Stage rnd k p s c wr todo [i] [.modbusAduReq 0 k f] 5
  | rsp {i : Nat} (hk : kind i = .answered ∨ kind i = .silent) (hc : Waits c (pend rnd i) (todo.map (pend rnd)))
      (hs : Asked s (pend rnd i)) (hw : wr i = true) (h1 : p.toMod = [.aduRsp 0 k (app rnd i)]) (h2 : p.up = []) (h3 : p.down = []) :
      Stage rnd k p s c wr todo [i] [] 4
  | down {i : Nat} {w : List UInt8} (hk : kind i = .answered) (hc : Waits c (pend rnd i) (todo.map (pend rnd)))
      (hs : s.Fresh) (hw : wr i = true) (hd : Carries (pend rnd i) (app rnd i) w) (h1 : p.toMod = []) (h2 : p.up = [])
      (h3 : p.down = [w]) :
      Stage rnd k p s c wr todo [i] [] 3
  | mute {i : Nat} (hk : kind i = .silent) (hc : Waits c (pend rnd i) (todo.map (pend rnd)))
      (hs : s.Fresh) (h1 : p.toMod = []) (h2 : p.up = []) (h3 : p.down = []) :
      Stage rnd k p s c wr todo [i] [] 3

/-- The parts of the state that are the same in all phases. -/
structure Base (rnd : Nat → UInt8) (k : Nat) (p : Plant) (t : Test) (d : Dispatcher) (v : Server) (c : Client) (wr : Nat → Bool) :
    Prop where
  ctl : p.ctl.modbus = some t
  mod : p.mod = some d
  nc : d.numClients = 1
  ns : d.numServers = 1
  srv : d.servers 0 = some v
  cli : d.clients 0 = some c
  small : k < 256
  cases : t.cases = casesAt rnd wr

/-- The three phases of a round, with a bound for the number of steps to the end of the round. -/
inductive Phase (rnd : Nat → UInt8) (k : Nat) (p : Plant) (t : Test) (v : Server) (c : Client) (wr : Nat → Bool) : Nat → Prop
  | sent (st : t.st = .run) (ar : t.armed = false) (ct : t.counter = 0) (hc : CliOk c []) (hs : (v.sess k).Fresh) (h0 : p.toCtl = [])
      (h1 : p.toMod = [.batch (batch (testCases rnd))]) (h2 : p.up = []) (h3 : p.down = []) (h4 : p.got = []) :
      Phase rnd k p t v c wr (123 + if c.st = .connected then 0 else 1)
  | run {gs rs todo fl : List Nat} {x : List Controller.Ev} {w : Nat} (st : t.st = .run) (ar : t.armed = false)
      (ct : t.counter = gs.length) (hl : gs.length < 16) (hp : (gs ++ rs ++ fl ++ todo).Perm (List.range 16))
      (h0 : p.toCtl = rs.map (msg rnd) ++ x) (h4 : p.got = gs.map (ans rnd))
      (hw : ∀ i ∈ rs, kind i = .answered → wr i = true) (hm : ∀ i ∈ todo, mine i = true)
      (hst : Stage rnd k p (v.sess k) c wr todo fl x w) :
      Phase rnd k p t v c wr (w + 8 * todo.length + rs.length)
  | setup {gs : List Nat} (st : t.st = .setup) (ar : t.armed = true) (hc : CliOk c []) (hs : (v.sess k).Fresh)
      (h0 : p.toCtl = []) (h1 : p.toMod = []) (h2 : p.up = []) (h3 : p.down = [])
      (hp : gs.Perm (List.range 16)) (h4 : p.got = gs.map (ans rnd)) :
      Phase rnd k p t v c wr 0

def Inv (rnd : Nat → UInt8) (k : Nat) (p : Plant) (n : Nat) : Prop :=
  ∃ t d v c wr, Base rnd k p t d v c wr ∧ Phase rnd k p t v c wr n

theorem inv_start {rnd : Nat → UInt8} {k : Nat} {p : Plant} (h : Start rnd k p) : Inv rnd k p 123 := by
  obtain ⟨⟨t, a1, a2, a3, a4, a5⟩, ⟨d, v, c, b1, b2, b3, b4, b5, b6, b7, b8, b9, b10⟩, h1, h2, h3, h4, h5, h6⟩ := h
  have := Phase.sent (rnd := rnd) (k := k) (p := p) (t := t) (v := v) (c := c) (wr := fun _ => false) a2 a4 a3
    (.inr ⟨rfl, b7, b8, b10, b9⟩) b6 h2 h3 h4 h5 h6
  rw [if_pos b7] at this
  exact ⟨t, d, v, c, fun _ => false, ⟨a1, b1, b2, b3, b4, b5, h1, by rw [a5, casesAt_none]⟩, this⟩

theorem onMod_eq {p : Plant} {d d' : Dispatcher} {e : Dispatcher.Ev} {o : List Dispatcher.Out} (hm : p.mod = some d)
    (hs : d.step e = .ok (d', o)) :
    p.onMod e = .ok { p with mod := some d', toCtl := p.toCtl ++ o.filterMap toCtlOf, up := p.up ++ o.filterMap upOf,
                             down := p.down ++ o.filterMap downOf } := by
  unfold Plant.onMod
  rw [hm]
  simp only [hs, Exec.ok_bind, Exec.pure_eq]

/-- What a step does to the bound. -/
def Next (rnd : Nat → UInt8) (k : Nat) (p : Plant) (n : Nat) (e : Ev) : Prop :=
  ∃ q m, p.step rnd k e = .ok q ∧ Inv rnd k q m ∧
    ((p.test = some .run ∧ m < n) ∨ (p.test = some .setup ∧ q.test = some .setup) ∨ (p.test = some .setup ∧ m ≤ 124))

theorem test_eq {p : Plant} {t : Test} (h : p.ctl.modbus = some t) : p.test = some t.st := by
  unfold Plant.test; rw [h]; rfl

theorem not_waiting {c : Client} {l : List Pending} (h : CliOk c l) (ht : c.timer = true) : Ready c l := by
  rcases h with h | ⟨_, h⟩
  · exact h
  · have := h.timer; rw [ht] at this; cases this

/-- The timer of the client expires while it has nothing to do. -/
theorem idle_timer {rnd : Nat → UInt8} {k : Nat} {p : Plant} {t : Test} {d : Dispatcher} {v : Server} {c : Client} {wr : Nat → Bool}
    (hb : Base rnd k p t d v c wr) (hc : Ready c []) :
    ∃ d' c', p.step rnd k .cliTimer = .ok { p with mod := some d' } ∧ Base rnd k { p with mod := some d' } t d' v c' wr ∧ Idle c' := by
  obtain ⟨c', g1, g2⟩ := client_idles hc
  refine ⟨{ d with clients := Dispatcher.upd d.clients 0 c' }, c', ?_,
    ⟨hb.ctl, rfl, hb.nc, hb.ns, hb.srv, rfl, hb.small, hb.cases⟩, g2⟩
  show p.onMod _ = _
  rw [onMod_eq hb.mod (mod_client hb.cli rfl g1)]
  simp

theorem sent_step {rnd : Nat → UInt8} {k : Nat} {p : Plant} {t : Test} {d : Dispatcher} {v : Server} {c : Client} {wr : Nat → Bool}
    (hb : Base rnd k p t d v c wr) (st : t.st = .run) (ar : t.armed = false) (ct : t.counter = 0) (hc : CliOk c [])
    (hs : (v.sess k).Fresh) (h0 : p.toCtl = [])
    (h1 : p.toMod = [.batch (batch (testCases rnd))]) (h2 : p.up = []) (h3 : p.down = []) (h4 : p.got = []) {e : Ev}
    (he : p.Calm e) : Next rnd k p (123 + if c.st = .connected then 0 else 1) e := by
  cases e with
  | ctlMsg => exact absurd h0 he
  | up => exact absurd h2 he
  | down => exact absurd h3 he
  | ctlTimer =>
    obtain ⟨t', ht', ha⟩ := he
    rw [hb.ctl] at ht'
    cases ht'
    rw [ar] at ha
    cases ha
  | cliTimer =>
    obtain ⟨d1, c1, e1, e2, e3, _⟩ := he
    rw [hb.mod] at e1
    cases e1
    rw [hb.cli] at e2
    cases e2
    have hr := not_waiting hc e3
    obtain ⟨d', c', g1, g2, g3⟩ := idle_timer hb hr
    have hph := Phase.sent (p := { p with mod := some d' }) (wr := wr) st ar ct (.inr ⟨rfl, g3⟩) hs h0 h1 h2 h3 h4
    refine ⟨_, _, g1, ⟨t, d', v, c', wr, g2, hph⟩, .inl ⟨by rw [test_eq hb.ctl, st], ?_⟩⟩
    rw [if_pos g3.st, if_neg (by rw [hr.st]; decide)]
    omega
  | modMsg =>
    obtain ⟨d', c', o, k1, k2, k3, k4, k5, k6, k7, k8, k9⟩ := batch_run rnd (List.range 16) (by simp) hb.nc hb.cli hc (by simp)
    have hstep : p.step rnd k .modMsg = .ok { p with toMod := [], mod := some d', toCtl := [msg rnd 12] } := by
      show (match p.toMod with | [] => _ | m :: ms => _) = _
      rw [h1]
      show Plant.onMod _ _ = _
      refine (onMod_eq (p := { p with toMod := [] }) (d := d) (d' := d') (o := o) (e := .batch ((batch (testCases rnd)).map callerOf))
        hb.mod (by rw [batch_eq]; exact k1)).trans ?_
      rw [k7, k8, k9, h0, h2, h3]
      rfl
    have hcl : CliOk c' (([0, 1, 2, 3, 4, 5, 6, 7, 8, 9, 10, 11, 13, 14, 15] : List Nat).map (pend rnd)) := k6
    have hr : Ready c' (([0, 1, 2, 3, 4, 5, 6, 7, 8, 9, 10, 11, 13, 14, 15] : List Nat).map (pend rnd)) := by
      rcases hcl with h | ⟨h, _⟩
      · exact h
      · cases h
    have hph := Phase.run (rnd := rnd) (k := k) (p := { p with toMod := [], mod := some d', toCtl := [msg rnd 12] })
      (t := t) (v := v) (c := c') (wr := wr) (gs := []) (rs := [12]) (fl := [])
      (todo := [0, 1, 2, 3, 4, 5, 6, 7, 8, 9, 10, 11, 13, 14, 15]) st ar ct (by simp) (by decide) rfl h4
      (fun i hi hk => by rw [List.mem_singleton.1 hi] at hk; cases hk) (by decide) (.none hcl hs rfl h2 h3)
    refine ⟨_, _, hstep, ⟨t, d', v, c', wr, ⟨hb.ctl, rfl, k2, by rw [k3, hb.ns], by rw [k4, hb.srv], k5, hb.small, hb.cases⟩, hph⟩,
      .inl ⟨by rw [test_eq hb.ctl, st], ?_⟩⟩
    rw [if_neg (by rw [hr.st]; decide)]
    simp only [List.length_cons, List.length_nil]
    omega

theorem setup_step {rnd : Nat → UInt8} {k : Nat} {p : Plant} {t : Test} {d : Dispatcher} {v : Server} {c : Client} {wr : Nat → Bool}
    {gs : List Nat} (hb : Base rnd k p t d v c wr) (st : t.st = .setup) (ar : t.armed = true) (hc : CliOk c []) (hs : (v.sess k).Fresh)
    (h0 : p.toCtl = []) (h1 : p.toMod = []) (h2 : p.up = []) (h3 : p.down = [])
    (hp : gs.Perm (List.range 16)) (h4 : p.got = gs.map (ans rnd)) {e : Ev}
    (he : p.Calm e) : Next rnd k p 0 e := by
  cases e with
  | ctlMsg => exact absurd h0 he
  | modMsg => exact absurd h1 he
  | up => exact absurd h2 he
  | down => exact absurd h3 he
  | cliTimer =>
    obtain ⟨d1, c1, e1, e2, e3, _⟩ := he
    rw [hb.mod] at e1
    cases e1
    rw [hb.cli] at e2
    cases e2
    obtain ⟨d', c', g1, g2, g3⟩ := idle_timer hb (not_waiting hc e3)
    have hph := Phase.setup (p := { p with mod := some d' }) (wr := wr) st ar (.inr ⟨rfl, g3⟩) hs h0 h1 h2 h3 hp h4
    exact ⟨_, _, g1, ⟨t, d', v, c', wr, g2, hph⟩, .inr (.inl ⟨by rw [test_eq hb.ctl, st], by rw [test_eq g2.ctl, st]⟩)⟩
  | ctlTimer =>
    obtain ⟨tst, tc, tn, ta⟩ := t
    have ar : ta = true := ar
    have st : tst = .setup := st
    subst ar; subst st
    have hcs : tc = casesAt rnd wr := hb.cases
    have hstep : p.step rnd k .ctlTimer = .ok { p with
        ctl := { p.ctl with modbus := some ⟨.run, tc, 0, false⟩ }, toMod := [.batch (batch (testCases rnd))], got := [] } := by
      show Plant.onCtl rnd p .timer = _
      simp only [Plant.onCtl, Ctl.step, Ctl.onTest, hb.ctl, Exec.ok_bind, Exec.pure_eq, Test.onTimer, if_true, Test.transit, Test.enter,
        Test.exit, h1, hcs, batch_casesAt]
      rfl
    have hph := Phase.sent (rnd := rnd) (k := k) (p := { p with
        ctl := { p.ctl with modbus := some ⟨.run, tc, 0, false⟩ }, toMod := [.batch (batch (testCases rnd))], got := [] })
        (t := ⟨.run, tc, 0, false⟩) (v := v) (c := c) (wr := wr) rfl rfl rfl hc hs h0 rfl h2 h3 rfl
    refine ⟨_, _, hstep, ⟨_, d, v, c, wr, ⟨rfl, hb.mod, hb.nc, hb.ns, hb.srv, hb.cli, hb.small, hb.cases⟩, hph⟩,
      .inr (.inr ⟨by rw [test_eq hb.ctl], ?_⟩)⟩
    split <;> omega

theorem mem_range_of {gs rs fl todo : List Nat} (hp : (gs ++ rs ++ fl ++ todo).Perm (List.range 16)) {i : Nat}
    (h : i ∈ gs ∨ i ∈ rs ∨ i ∈ fl ∨ i ∈ todo) : i < 16 := by
  have : i ∈ gs ++ rs ++ fl ++ todo := by
    simp only [List.mem_append]
    rcases h with h | h | h | h <;> simp [h]
  simpa using hp.mem_iff.1 this

theorem length_of {gs rs fl todo : List Nat} (hp : (gs ++ rs ++ fl ++ todo).Perm (List.range 16)) :
    gs.length + rs.length + fl.length + todo.length = 16 := by
  have := hp.length_eq
  simp only [List.length_append, List.length_range] at this
  omega

theorem failure_ans (rnd : Nat → UInt8) {i : Nat} (h : i < 16) (hk : kind i ≠ .answered) :
    (CRsp.mk (pend rnd i).clientId (pend rnd i).transactId false 0 []) = ans rnd i := by
  rw [pend_eq rnd h]
  unfold ans
  rw [if_neg hk]

/-- The controller takes an answer. -/
theorem run_answer {rnd : Nat → UInt8} {k : Nat} {p : Plant} {t : Test} {d : Dispatcher} {v : Server} {c : Client} {wr : Nat → Bool}
    {gs rs todo fl : List Nat} {x : List Controller.Ev} {w i : Nat} (hb : Base rnd k p t d v c wr) (st : t.st = .run)
    (ar : t.armed = false) (ct : t.counter = gs.length) (hl : gs.length < 16)
    (hp : (gs ++ i :: rs ++ fl ++ todo).Perm (List.range 16))
    (h0 : p.toCtl = msg rnd i :: (rs.map (msg rnd) ++ x)) (h4 : p.got = gs.map (ans rnd))
    (hw : ∀ j ∈ i :: rs, kind j = .answered → wr j = true) (hm : ∀ i ∈ todo, mine i = true)
    (hst : Stage rnd k p (v.sess k) c wr todo fl x w) : Next rnd k p (w + 8 * todo.length + (i :: rs).length) .ctlMsg := by
  have hi : i < 16 := mem_range_of hp (.inr (.inl (by simp)))
  have hck := check_case hb.cases hi (hw i (by simp))
  obtain ⟨tst, tc, tn, ta⟩ := t
  have ar : ta = false := ar
  have st : tst = .run := st
  have ct : tn = gs.length := ct
  subst ar; subst st; subst ct
  have hlen := length_of hp
  simp only [List.length_cons] at hlen
  have hp' : ((gs ++ [i]) ++ rs ++ fl ++ todo).Perm (List.range 16) := by simpa using hp
  have hgot : p.got ++ [ans rnd i] = (gs ++ [i]).map (ans rnd) := by rw [h4]; simp
  by_cases hd : gs.length + 1 = 16
  · have hrs : rs = [] := List.length_eq_zero_iff.1 (by omega)
    have hfl : fl = [] := List.length_eq_zero_iff.1 (by omega)
    have hto : todo = [] := List.length_eq_zero_iff.1 (by omega)
    subst hrs; subst hfl; subst hto
    cases hst with
    | none hc hs h1 h2 h3 =>
      have hstep : p.step rnd k .ctlMsg = .ok { p with
          ctl := { p.ctl with modbus := some ⟨.setup, tc, gs.length + 1, true⟩ }, toCtl := [], got := (gs ++ [i]).map (ans rnd) } := by
        show (match p.toCtl with | [] => _ | m :: ms => _) = _
        rw [h0]
        simp only [Plant.onCtl, Ctl.step, Ctl.onTestE, hb.ctl, msg, Test.onClientAduRsp, hck, Exec.ok_bind, Exec.pure_eq, if_pos hd,
          Test.transit, Test.enter, Test.exit, answerOf, ← hgot]
        simp
      have hph := Phase.setup (rnd := rnd) (k := k) (p := { p with
          ctl := { p.ctl with modbus := some ⟨.setup, tc, gs.length + 1, true⟩ }, toCtl := [], got := (gs ++ [i]).map (ans rnd) })
          (t := ⟨.setup, tc, gs.length + 1, true⟩) (v := v) (c := c) (wr := wr) (gs := gs ++ [i]) rfl rfl hc hs rfl h1 h2 h3
          (by simpa using hp') rfl
      refine ⟨_, _, hstep, ⟨_, d, v, c, wr, ⟨rfl, hb.mod, hb.nc, hb.ns, hb.srv, hb.cli, hb.small, hb.cases⟩, hph⟩,
        .inl ⟨by rw [test_eq hb.ctl], ?_⟩⟩
      simp only [List.length_cons]
      omega
  · have hstep : p.step rnd k .ctlMsg = .ok { p with
        ctl := { p.ctl with modbus := some ⟨.run, tc, gs.length + 1, false⟩ }, toCtl := rs.map (msg rnd) ++ x,
        got := (gs ++ [i]).map (ans rnd) } := by
      show (match p.toCtl with | [] => _ | m :: ms => _) = _
      rw [h0]
      simp only [Plant.onCtl, Ctl.step, Ctl.onTestE, hb.ctl, msg, Test.onClientAduRsp, hck, Exec.ok_bind, Exec.pure_eq, if_neg hd,
        answerOf, ← hgot]
      simp
    have hph := Phase.run (rnd := rnd) (k := k) (p := { p with
        ctl := { p.ctl with modbus := some ⟨.run, tc, gs.length + 1, false⟩ }, toCtl := rs.map (msg rnd) ++ x,
        got := (gs ++ [i]).map (ans rnd) })
        (t := ⟨.run, tc, gs.length + 1, false⟩) (v := v) (c := c) (wr := wr) (gs := gs ++ [i]) (rs := rs) (fl := fl) (todo := todo)
        (x := x) (w := w) rfl rfl (by simp) (by simp; omega) hp' rfl rfl (fun j hj => hw j (by simp [hj])) hm
        (by cases hst with
          | none hc hs h1 h2 h3 => exact .none hc hs h1 h2 h3
          | up hk hc hs h1 h2 h3 => exact .up hk hc hs h1 h2 h3
          | fwd hk hc hs hf h1 h2 h3 => exact .fwd hk hc hs hf h1 h2 h3
          | rsp hk hc hs hw h1 h2 h3 => exact .rsp hk hc hs hw h1 h2 h3
          | down hk hc hs hw hd h1 h2 h3 => exact .down hk hc hs hw hd h1 h2 h3
          | mute hk hc hs h1 h2 h3 => exact .mute hk hc hs h1 h2 h3)
    refine ⟨_, _, hstep, ⟨_, d, v, c, wr, ⟨rfl, hb.mod, hb.nc, hb.ns, hb.srv, hb.cli, hb.small, hb.cases⟩, hph⟩,
      .inl ⟨by rw [test_eq hb.ctl], ?_⟩⟩
    simp only [List.length_cons]
    omega

theorem run_step {rnd : Nat → UInt8} {k : Nat} {p : Plant} {t : Test} {d : Dispatcher} {v : Server} {c : Client} {wr : Nat → Bool}
    {gs rs todo fl : List Nat} {x : List Controller.Ev} {w : Nat} (hb : Base rnd k p t d v c wr) (st : t.st = .run)
    (ar : t.armed = false) (ct : t.counter = gs.length) (hl : gs.length < 16)
    (hp : (gs ++ rs ++ fl ++ todo).Perm (List.range 16))
    (h0 : p.toCtl = rs.map (msg rnd) ++ x) (h4 : p.got = gs.map (ans rnd))
    (hw : ∀ i ∈ rs, kind i = .answered → wr i = true) (hm : ∀ i ∈ todo, mine i = true)
    (hst : Stage rnd k p (v.sess k) c wr todo fl x w) {e : Ev} (he : p.Calm e) :
    Next rnd k p (w + 8 * todo.length + rs.length) e := by
  have hrun : p.test = some .run := by rw [test_eq hb.ctl, st]
  have hctlTimer : ¬ p.Calm .ctlTimer := by
    rintro ⟨t', ht', ha⟩
    rw [hb.ctl] at ht'
    cases ht'
    rw [ar] at ha
    cases ha
  have hcli : ∀ d1 c1, p.mod = some d1 → d1.clients 0 = some c1 → c1 = c := by
    intro d1 c1 e1 e2
    rw [hb.mod] at e1
    cases e1
    rw [hb.cli] at e2
    exact (Option.some.inj e2).symm
  -- an answer is taken by the controller
  by_cases hans : e = .ctlMsg ∧ rs ≠ []
  · obtain ⟨rfl, hne⟩ := hans
    obtain ⟨i, rs', rfl⟩ := List.exists_cons_of_ne_nil hne
    exact run_answer hb st ar ct hl hp (by rw [h0]; rfl) h4 hw hm hst
  cases hst with
  | none hc hs h1 h2 h3 =>
    cases e with
    | ctlTimer => exact absurd he hctlTimer
    | up => exact absurd h2 he
    | down => exact absurd h3 he
    | modMsg => exact absurd h1 he
    | ctlMsg =>
      exfalso
      apply he
      rw [h0]
      have : rs = [] := by
        by_cases h : rs = []
        · exact h
        · exact absurd ⟨rfl, h⟩ hans
      rw [this]
      rfl
    | cliTimer =>
      obtain ⟨d1, c1, e1, e2, e3, _⟩ := he
      have := hcli d1 c1 e1 e2
      subst this
      have hr := not_waiting hc e3
      cases todo with
      | nil =>
        obtain ⟨d', c', g1, g2, g3⟩ := idle_timer hb hr
        have hph := Phase.run (p := { p with mod := some d' }) st ar ct hl hp h0 h4 hw hm (.none (.inr ⟨rfl, g3⟩) hs h1 h2 h3)
        refine ⟨_, _, g1, ⟨t, d', v, c', wr, g2, hph⟩, .inl ⟨hrun, ?_⟩⟩
        rw [if_pos g3.st, if_neg (by rw [hr.st]; decide)]
        omega
      | cons i todo =>
        have hi : i < 16 := mem_range_of hp (.inr (.inr (.inr (by simp))))
        have hmi := hm i (by simp)
        have hpe := pend_eq rnd hi
        have hdl : (pend rnd i).data.length = (pend rnd i).numBytes := by rw [hpe]
        have hdb : (pend rnd i).numBytes ≤ 260 := by
          rw [hpe]
          have := kase_bounds rnd hi
          show (kase rnd i).data.length ≤ 260
          omega
        by_cases hk : kind i = .answered ∨ kind i = .silent
        · obtain ⟨c', g1, g2, g3, g4⟩ := client_sends hr (reqOk_of (sendable rnd hi hk)) hdl hdb true
          have hstep : p.step rnd k .cliTimer = .ok { p with
              mod := some { d with clients := Dispatcher.upd d.clients 0 c' },
              up := [reqFrame (Client.reqOfPending (pend rnd i))] } := by
            show p.onMod _ = _
            rw [onMod_eq hb.mod (mod_client hb.cli rfl g1), h2, h3]
            simp [toCtlOf, upOf, downOf]
          have hph := Phase.run (p := { p with
              mod := some { d with clients := Dispatcher.upd d.clients 0 c' },
              up := [reqFrame (Client.reqOfPending (pend rnd i))] }) (fl := [i]) (todo := todo) st ar ct hl (by simpa using hp)
              h0 h4 hw (fun j hj => hm j (by simp [hj])) (.up hk ⟨g2, g3, g4⟩ hs h1 rfl h3)
          refine ⟨_, _, hstep, ⟨t, _, v, c', wr, ⟨hb.ctl, rfl, hb.nc, hb.ns, hb.srv, rfl, hb.small, hb.cases⟩, hph⟩,
            .inl ⟨hrun, ?_⟩⟩
          simp only [List.length_cons]
          omega
        · have hkr : kind i = .refused := by
            unfold mine at hmi
            simp only [decide_eq_true_eq] at hmi
            cases hki : kind i <;> simp_all
          obtain ⟨c', g1, g2⟩ := client_refuses hr (refused rnd hi hkr) hdl hdb
          rw [failure_ans rnd hi (by rw [hkr]; decide)] at g1
          have hstep : p.step rnd k .cliTimer = .ok { p with
              mod := some { d with clients := Dispatcher.upd d.clients 0 c' },
              toCtl := (rs ++ [i]).map (msg rnd) ++ [] } := by
            show p.onMod _ = _
            rw [onMod_eq hb.mod (mod_client hb.cli rfl g1), h0, h2, h3]
            simp [toCtlOf, upOf, downOf, msg]
          have hph := Phase.run (p := { p with
              mod := some { d with clients := Dispatcher.upd d.clients 0 c' },
              toCtl := (rs ++ [i]).map (msg rnd) ++ [] }) (fl := []) (rs := rs ++ [i]) (todo := todo) st ar ct hl (by simpa using hp)
              rfl h4 (fun j hj hkj => by
                rcases List.mem_append.1 hj with hj | hj
                · exact hw j hj hkj
                · rw [List.mem_singleton.1 hj, hkr] at hkj
                  cases hkj) (fun j hj => hm j (by simp [hj])) (.none (.inl g2) hs h1 h2 h3)
          refine ⟨_, _, hstep, ⟨t, _, v, c', wr, ⟨hb.ctl, rfl, hb.nc, hb.ns, hb.srv, rfl, hb.small, hb.cases⟩, hph⟩,
            .inl ⟨hrun, ?_⟩⟩
          rw [if_neg (by rw [g2.st]; decide), if_neg (by rw [hr.st]; decide)]
          simp only [List.length_cons, List.length_append, List.length_nil]
          omega
  | @up i hk hc hs h1 h2 h3 =>
    have hi : i < 16 := mem_range_of hp (.inr (.inr (.inl (by simp))))
    cases e with
    | ctlTimer => exact absurd he hctlTimer
    | down => exact absurd h3 he
    | modMsg => exact absurd h1 he
    | ctlMsg =>
      exfalso
      apply he
      rw [h0]
      have : rs = [] := by
        by_cases h : rs = []
        · exact h
        · exact absurd ⟨rfl, h⟩ hans
      rw [this]
      rfl
    | cliTimer =>
      obtain ⟨d1, c1, e1, e2, e3, e4⟩ := he
      have := hcli d1 c1 e1 e2
      subst this
      exact absurd (.inl (by rw [h2]; simp)) (e4 hc.fresh.st)
    | up =>
      obtain ⟨s1, f, g1, g2, g3⟩ := session_receives hs (sendable rnd hi hk)
      have hstep : p.step rnd k .up = .ok { p with
          mod := some { d with servers := Dispatcher.upd d.servers 0 { v with sess := Server.set v.sess k s1 } },
          toCtl := rs.map (msg rnd) ++ [.modbusAduReq 0 k f], up := [] } := by
        show (match p.up with | [] => _ | w :: ws => _) = _
        rw [h2]
        refine (onMod_eq (p := { p with up := [] }) (d := d) hb.mod (mod_sess hb.srv hb.small g1 (by simp))).trans ?_
        rw [h0, h3]
        simp [toCtlOf, upOf, downOf]
      have hph := Phase.run (p := { p with
          mod := some { d with servers := Dispatcher.upd d.servers 0 { v with sess := Server.set v.sess k s1 } },
          toCtl := rs.map (msg rnd) ++ [.modbusAduReq 0 k f], up := [] }) (k := k) (v := { v with sess := Server.set v.sess k s1 })
          st ar ct hl hp rfl h4 hw hm (.fwd hk hc (by simpa [Server.set] using g3) g2 h1 rfl h3)
      refine ⟨_, _, hstep, ⟨t, _, _, c, wr, ⟨hb.ctl, rfl, hb.nc, hb.ns, rfl, hb.cli, hb.small, hb.cases⟩, hph⟩,
        .inl ⟨hrun, by omega⟩⟩
  | @fwd i f hk hc hs hf h1 h2 h3 =>
    have hi : i < 16 := mem_range_of hp (.inr (.inr (.inl (by simp))))
    cases e with
    | ctlTimer => exact absurd he hctlTimer
    | up => exact absurd h2 he
    | down => exact absurd h3 he
    | modMsg => exact absurd h1 he
    | cliTimer =>
      obtain ⟨d1, c1, e1, e2, e3, e4⟩ := he
      have := hcli d1 c1 e1 e2
      subst this
      exact absurd (.inr (.inr (.inl ⟨.modbusAduReq 0 k f, by rw [h0]; simp, rfl⟩))) (e4 hc.fresh.st)
    | ctlMsg =>
      have hrs : rs = [] := by
        by_cases h : rs = []
        · exact h
        · exact absurd ⟨rfl, h⟩ hans
      subst hrs
      have hsv := serve_case hb.cases hi hk hf 0 k
      obtain ⟨tst, tc, tn, ta⟩ := t
      have st : tst = .run := st
      subst st
      have hstep : p.step rnd k .ctlMsg = .ok { p with
          ctl := { p.ctl with modbus := some ⟨.run, casesAt rnd (also wr i), tn, ta⟩ }, toCtl := [],
          toMod := [.aduRsp 0 k (app rnd i)] } := by
        show (match p.toCtl with | [] => _ | m :: ms => _) = _
        rw [h0]
        simp only [List.map_nil, List.nil_append, Plant.onCtl, Ctl.step, Ctl.onTestE, hb.ctl, Test.onAduReq, hsv, Exec.ok_bind,
          Exec.pure_eq, answerOf, h1]
        simp [fromCtl, isBatch]
      have hph := Phase.run (p := { p with
          ctl := { p.ctl with modbus := some ⟨.run, casesAt rnd (also wr i), tn, ta⟩ }, toCtl := [],
          toMod := [.aduRsp 0 k (app rnd i)] }) (t := ⟨.run, casesAt rnd (also wr i), tn, ta⟩) (v := v) (wr := also wr i) (rs := [])
          (x := []) rfl ar ct hl hp rfl h4 (by simp) hm (.rsp hk hc hs (by simp [also]) rfl h2 h3)
      refine ⟨_, _, hstep, ⟨_, d, v, c, _, ⟨rfl, hb.mod, hb.nc, hb.ns, hb.srv, hb.cli, hb.small, rfl⟩, hph⟩, .inl ⟨hrun, by omega⟩⟩
  | @rsp i hk hc hs hwi h1 h2 h3 =>
    have hi : i < 16 := mem_range_of hp (.inr (.inr (.inl (by simp))))
    cases e with
    | ctlTimer => exact absurd he hctlTimer
    | up => exact absurd h2 he
    | down => exact absurd h3 he
    | ctlMsg =>
      exfalso
      apply he
      rw [h0]
      have : rs = [] := by
        by_cases h : rs = []
        · exact h
        · exact absurd ⟨rfl, h⟩ hans
      rw [this]
      rfl
    | cliTimer =>
      obtain ⟨d1, c1, e1, e2, e3, e4⟩ := he
      have := hcli d1 c1 e1 e2
      subst this
      exact absurd (.inr (.inr (.inr ⟨.aduRsp 0 k (app rnd i), by rw [h1]; simp, rfl⟩))) (e4 hc.fresh.st)
    | modMsg =>
      by_cases hka : kind i = .answered
      · have ht : (app rnd i).transactId = (pend rnd i).transactId := by rw [pend_eq rnd hi]; rfl
        obtain ⟨s2, g1, g2⟩ := session_sends hs (sendable rnd hi hk) (suits rnd hi hka) ht
        have hcar := carries hs (sendable rnd hi hk) (suits rnd hi hka) ht
        generalize rspFrame ((v.sess k).rspOf (app rnd i)) = wire at g1 hcar
        have hstep : p.step rnd k .modMsg = .ok { p with
            mod := some { d with servers := Dispatcher.upd d.servers 0 { v with sess := Server.set v.sess k s2 } },
            toMod := [], down := [wire] } := by
          show (match p.toMod with | [] => _ | w :: ws => _) = _
          rw [h1]
          refine (onMod_eq (p := { p with toMod := [] }) (d := d) hb.mod (mod_aduRsp hb.ns hb.srv hb.small g1 (by simp))).trans ?_
          rw [h2, h3]
          simp [toCtlOf, upOf, downOf]
        have hph := Phase.run (p := { p with
            mod := some { d with servers := Dispatcher.upd d.servers 0 { v with sess := Server.set v.sess k s2 } },
            toMod := [], down := [wire] }) (k := k) (v := { v with sess := Server.set v.sess k s2 })
            st ar ct hl hp h0 h4 hw hm (.down hka hc (by simpa [Server.set] using g2) hwi hcar rfl h2 rfl)
        refine ⟨_, _, hstep, ⟨t, _, _, c, wr, ⟨hb.ctl, rfl, hb.nc, hb.ns, rfl, hb.cli, hb.small, hb.cases⟩, hph⟩,
          .inl ⟨hrun, by omega⟩⟩
      · have hks : kind i = .silent := by
          rcases hk with h | h
          · exact absurd h hka
          · exact h
        obtain ⟨s2, g1, g2⟩ := session_declines hs (silent_fails rnd hi hks) true
        have hstep : p.step rnd k .modMsg = .ok { p with
            mod := some { d with servers := Dispatcher.upd d.servers 0 { v with sess := Server.set v.sess k s2 } },
            toMod := [] } := by
          show (match p.toMod with | [] => _ | w :: ws => _) = _
          rw [h1]
          refine (onMod_eq (p := { p with toMod := [] }) (d := d) hb.mod (mod_aduRsp hb.ns hb.srv hb.small g1 (by simp))).trans ?_
          simp
        have hph := Phase.run (p := { p with
            mod := some { d with servers := Dispatcher.upd d.servers 0 { v with sess := Server.set v.sess k s2 } },
            toMod := [] }) (k := k) (v := { v with sess := Server.set v.sess k s2 })
            st ar ct hl hp h0 h4 hw hm (.mute hks hc (by simpa [Server.set] using g2) rfl h2 h3)
        refine ⟨_, _, hstep, ⟨t, _, _, c, wr, ⟨hb.ctl, rfl, hb.nc, hb.ns, rfl, hb.cli, hb.small, hb.cases⟩, hph⟩,
          .inl ⟨hrun, by omega⟩⟩
  | @down i wire hk hc hs hwi hcar h1 h2 h3 =>
    have hi : i < 16 := mem_range_of hp (.inr (.inr (.inl (by simp))))
    cases e with
    | ctlTimer => exact absurd he hctlTimer
    | up => exact absurd h2 he
    | modMsg => exact absurd h1 he
    | ctlMsg =>
      exfalso
      apply he
      rw [h0]
      have : rs = [] := by
        by_cases h : rs = []
        · exact h
        · exact absurd ⟨rfl, h⟩ hans
      rw [this]
      rfl
    | cliTimer =>
      obtain ⟨d1, c1, e1, e2, e3, e4⟩ := he
      have := hcli d1 c1 e1 e2
      subst this
      exact absurd (.inr (.inl (by rw [h3]; simp))) (e4 hc.fresh.st)
    | down =>
      obtain ⟨c', g1, g2⟩ := hcar.told c _ hc.fresh hc.pending
      have hans' : told (pend rnd i) (app rnd i) = ans rnd i := by unfold ans; rw [if_pos hk]
      rw [hans'] at g1
      have hstep : p.step rnd k .down = .ok { p with
          mod := some { d with clients := Dispatcher.upd d.clients 0 c' },
          toCtl := (rs ++ [i]).map (msg rnd) ++ [], down := [] } := by
        show (match p.down with | [] => _ | w :: ws => _) = _
        rw [h3]
        refine (onMod_eq (p := { p with down := [] }) (d := d) hb.mod (mod_client hb.cli rfl g1)).trans ?_
        rw [h0, h2]
        simp [toCtlOf, upOf, downOf, msg]
      have hph := Phase.run (p := { p with
          mod := some { d with clients := Dispatcher.upd d.clients 0 c' },
          toCtl := (rs ++ [i]).map (msg rnd) ++ [], down := [] }) (fl := []) (rs := rs ++ [i]) st ar ct hl (by simpa using hp)
          rfl h4 (fun j hj hkj => by
            rcases List.mem_append.1 hj with hj | hj
            · exact hw j hj hkj
            · rw [List.mem_singleton.1 hj]; exact hwi) hm (.none (.inl g2) hs h1 h2 rfl)
      refine ⟨_, _, hstep, ⟨t, _, v, c', wr, ⟨hb.ctl, rfl, hb.nc, hb.ns, hb.srv, rfl, hb.small, hb.cases⟩, hph⟩, .inl ⟨hrun, ?_⟩⟩
      rw [if_neg (by rw [g2.st]; decide)]
      simp only [List.length_append, List.length_cons, List.length_nil]
      omega
  | @mute i hk hc hs h1 h2 h3 =>
    have hi : i < 16 := mem_range_of hp (.inr (.inr (.inl (by simp))))
    cases e with
    | ctlTimer => exact absurd he hctlTimer
    | up => exact absurd h2 he
    | down => exact absurd h3 he
    | modMsg => exact absurd h1 he
    | ctlMsg =>
      exfalso
      apply he
      rw [h0]
      have : rs = [] := by
        by_cases h : rs = []
        · exact h
        · exact absurd ⟨rfl, h⟩ hans
      rw [this]
      rfl
    | cliTimer =>
      obtain ⟨c', g1, g2⟩ := client_times_out hc
      rw [failure_ans rnd hi (by rw [hk]; decide)] at g1
      have hstep : p.step rnd k .cliTimer = .ok { p with
          mod := some { d with clients := Dispatcher.upd d.clients 0 c' },
          toCtl := (rs ++ [i]).map (msg rnd) ++ [] } := by
        show p.onMod _ = _
        rw [onMod_eq hb.mod (mod_client hb.cli rfl g1), h0, h2, h3]
        simp [toCtlOf, upOf, downOf, msg]
      have hph := Phase.run (p := { p with
          mod := some { d with clients := Dispatcher.upd d.clients 0 c' },
          toCtl := (rs ++ [i]).map (msg rnd) ++ [] }) (fl := []) (rs := rs ++ [i]) st ar ct hl (by simpa using hp)
          rfl h4 (fun j hj hkj => by
            rcases List.mem_append.1 hj with hj | hj
            · exact hw j hj hkj
            · rw [List.mem_singleton.1 hj, hk] at hkj
              cases hkj) hm (.none (.inl g2) hs h1 h2 h3)
      refine ⟨_, _, hstep, ⟨t, _, v, c', wr, ⟨hb.ctl, rfl, hb.nc, hb.ns, hb.srv, rfl, hb.small, hb.cases⟩, hph⟩, .inl ⟨hrun, ?_⟩⟩
      rw [if_neg (by rw [g2.st]; decide)]
      simp only [List.length_append, List.length_cons, List.length_nil]
      omega

theorem inv_step {rnd : Nat → UInt8} {k : Nat} {p : Plant} {n : Nat} (h : Inv rnd k p n) {e : Ev} (he : p.Calm e) :
    Next rnd k p n e := by
  obtain ⟨t, d, v, c, wr, hb, hph⟩ := h
  cases hph with
  | sent st ar ct hc hs h0 h1 h2 h3 h4 => exact sent_step hb st ar ct hc hs h0 h1 h2 h3 h4 he
  | run st ar ct hl hp h0 h4 hw hm hst => exact run_step hb st ar ct hl hp h0 h4 hw hm hst he
  | setup st ar hc hs h0 h1 h2 h3 hp h4 => exact setup_step hb st ar hc hs h0 h1 h2 h3 hp h4 he

/-! ## C68 -/

/-- The answers a round has to bring: transaction 2 is answered with exception 4, reads bring the bytes of the register files
(`rnd`), single writes bring back the value, and transactions 1, 5, 6, 9, 12, 13, 14 and 15 fail. -/
def expected (rnd : Nat → UInt8) : List CRsp :=
  [ ⟨0, 0, true, 0, []⟩, ⟨0, 1, false, 0, []⟩, ⟨0, 2, true, 4, []⟩, ⟨0, 3, true, 0, (List.range 240).map fun j => rnd (1780 + j)⟩,
    ⟨0, 4, true, 0, [rnd 0, rnd 1]⟩, ⟨0, 5, false, 0, []⟩, ⟨0, 6, false, 0, []⟩, ⟨0, 7, true, 0, []⟩, ⟨0, 8, true, 0, []⟩,
    ⟨0, 9, false, 0, []⟩, ⟨0, 10, true, 0, (List.range 250).map fun j => rnd (20 + j)⟩, ⟨0, 11, true, 0, []⟩,
    ⟨99, 12, false, 0, []⟩, ⟨0, 13, false, 0, []⟩, ⟨0, 14, false, 0, []⟩, ⟨0, 15, false, 0, []⟩ ]

theorem randVector_part (rnd : Nat → UInt8) (off n m : Nat) (h : off + n ≤ m) :
    ((randVector rnd m).drop off).take n = (List.range n).map fun j => rnd (off + j) := by
  apply List.ext_getElem
  · simp [randVector]; omega
  · intro j h1 h2
    simp [randVector]

theorem ans_expected (rnd : Nat → UInt8) : (List.range 16).map (ans rnd) = expected rnd := by
  have h3 := randVector_part rnd 1780 240 2048 (by omega)
  have h10 := randVector_part rnd 20 250 2048 (by omega)
  have hr : List.range 16 = [0, 1, 2, 3, 4, 5, 6, 7, 8, 9, 10, 11, 12, 13, 14, 15] := rfl
  rw [hr]
  simp [ans, kind, told, pend_eq, app, kase, testCases, expected, h3, h10]
  rfl

theorem phase_setup {rnd : Nat → UInt8} {k : Nat} {p : Plant} {n : Nat} (h : Inv rnd k p n) :
    (p.test = some .setup ∧ n = 0 ∧ p.got.Perm (expected rnd)) ∨ (p.test = some .run ∧ 0 < n) := by
  obtain ⟨t, d, v, c, wr, hb, hph⟩ := h
  cases hph with
  | sent st => exact .inr ⟨by rw [test_eq hb.ctl, st], by omega⟩
  | run st ar ct hl hp h0 h4 hw hm hst =>
    refine .inr ⟨by rw [test_eq hb.ctl, st], ?_⟩
    have := length_of hp
    cases hst with
    | none =>
      simp only [List.length_nil] at this
      omega
    | _ => omega
  | setup st ar hc hs h0 h1 h2 h3 hp h4 =>
    refine .inl ⟨by rw [test_eq hb.ctl, st], rfl, ?_⟩
    rw [h4, ← ans_expected]
    exact hp.map _

theorem reach_inv {rnd : Nat → UInt8} {k : Nat} {p : Plant} (h : Reach rnd k p) : ∃ n, Inv rnd k p n ∧ n ≤ 124 := by
  induction h with
  | start h => exact ⟨123, inv_start h, by omega⟩
  | step h hc hs ih =>
    obtain ⟨n, hi, hn⟩ := ih
    obtain ⟨q', m, e1, e2, e3⟩ := inv_step hi hc
    rw [e1] at hs
    cases hs
    refine ⟨m, e2, ?_⟩
    rcases e3 with ⟨_, e3⟩ | ⟨_, e3⟩ | ⟨_, e3⟩
    · omega
    · rcases phase_setup e2 with ⟨_, e4, _⟩ | ⟨e4, _⟩
      · omega
      · rw [e3] at e4; cases e4
    · exact e3

/-- C68: in every calm execution no event of the self-test is undefined behaviour, throws or terminates the program; the test
is never judged failed; the Modbus component is never released. -/
theorem C68_succeeds {rnd : Nat → UInt8} {k : Nat} {p : Plant} (h : Reach rnd k p) :
    (p.test = some .run ∨ p.test = some .setup) ∧ p.mod ≠ none ∧
    ∀ e, p.Calm e → ∃ q, p.step rnd k e = .ok q ∧ (q.test = some .run ∨ q.test = some .setup) := by
  obtain ⟨n, hi, _⟩ := reach_inv h
  have hv : ∀ {p : Plant} {n : Nat}, Inv rnd k p n → p.test = some .run ∨ p.test = some .setup := by
    intro p n hi
    rcases phase_setup hi with ⟨h, _⟩ | ⟨h, _⟩
    · exact .inr h
    · exact .inl h
  refine ⟨hv hi, ?_, ?_⟩
  · obtain ⟨t, d, v, c, wr, hb, _⟩ := hi
    rw [hb.mod]
    simp
  · intro e he
    obtain ⟨q, m, e1, e2, _⟩ := inv_step hi he
    exact ⟨q, e1, hv e2⟩

/-- C68: whenever a round ends, each of the sixteen expected answers has arrived exactly once, and nothing else. -/
theorem C68_answers {rnd : Nat → UInt8} {k : Nat} {p : Plant} (h : Reach rnd k p) (hs : p.test = some .setup) :
    p.got.Perm (expected rnd) := by
  obtain ⟨n, hi, _⟩ := reach_inv h
  rcases phase_setup hi with ⟨_, _, h⟩ | ⟨h, _⟩
  · exact h
  · rw [hs] at h; cases h

/-- C68: the test is never stuck. -/
theorem C68_alive {rnd : Nat → UInt8} {k : Nat} {p : Plant} (h : Reach rnd k p) : ∃ e, p.Calm e := by
  obtain ⟨n, ⟨t, d, v, c, wr, hb, hph⟩, _⟩ := reach_inv h
  cases hph with
  | sent st ar ct hc hs h0 h1 h2 h3 h4 => exact ⟨.modMsg, by show p.toMod ≠ []; rw [h1]; simp⟩
  | setup st ar hc hs h0 h1 h2 h3 hp h4 => exact ⟨.ctlTimer, t, hb.ctl, ar⟩
  | run st ar ct hl hp h0 h4 hw hm hst =>
    rename_i gs rs todo cur fl x w
    have hlen := length_of hp
    by_cases hrs : rs = []
    · subst hrs
      cases hst with
      | none hc hs h1 h2 h3 =>
        have hr : Ready c (todo.map (pend rnd)) := by
          rcases hc with hc | ⟨hc, _⟩
          · exact hc
          · have := congrArg List.length hc
            simp only [List.length_map, List.length_nil] at this hlen
            omega
        exact ⟨.cliTimer, d, c, hb.mod, hb.cli, hr.timer, fun h => by rw [hr.st] at h; cases h⟩
      | up hk hc hs h1 h2 h3 => exact ⟨.up, by show p.up ≠ []; rw [h2]; simp⟩
      | fwd hk hc hs hf h1 h2 h3 => exact ⟨.ctlMsg, by show p.toCtl ≠ []; rw [h0]; simp⟩
      | rsp hk hc hs hw h1 h2 h3 => exact ⟨.modMsg, by show p.toMod ≠ []; rw [h1]; simp⟩
      | down hk hc hs hw hd h1 h2 h3 => exact ⟨.down, by show p.down ≠ []; rw [h3]; simp⟩
      | mute hk hc hs h1 h2 h3 =>
        refine ⟨.cliTimer, d, c, hb.mod, hb.cli, hc.timer, fun _ => ?_⟩
        rintro (h | h | ⟨m, h, _⟩ | ⟨m, h, _⟩)
        · exact h h2
        · exact h h3
        · rw [h0] at h; simp at h
        · rw [h1] at h; simp at h
    · refine ⟨.ctlMsg, ?_⟩
      show p.toCtl ≠ []
      rw [h0]
      simp [hrs]

/-- C68: every calm execution completes one round after the other: among any 126 consecutive states there is one where a round
has ended. -/
theorem C68_rounds {rnd : Nat → UInt8} {k : Nat} {p : Plant} (h : Reach rnd k p) {qs : List Plant} (hr : Run rnd k p qs)
    (hl : 126 ≤ qs.length) : ∃ q ∈ qs, q.test = some .setup ∧ q.got.Perm (expected rnd) := by
  have key : ∀ {p : Plant} {qs : List Plant}, Run rnd k p qs → ∀ n, Inv rnd k p n → 0 < n → n ≤ qs.length →
      ∃ q ∈ qs, q.test = some .setup ∧ q.got.Perm (expected rnd) := by
    intro p qs hr
    induction hr with
    | nil p => intro n _ h0 hn; simp at hn; omega
    | cons hc hs hr ih =>
      intro n hi h0 hn
      simp only [List.length_cons] at hn
      obtain ⟨q', m, e1, e2, e3⟩ := inv_step hi hc
      rw [e1] at hs
      cases hs
      have hp : m < n := by
        rcases phase_setup hi with ⟨_, h, _⟩ | ⟨hp, _⟩
        · omega
        · rcases e3 with ⟨_, h⟩ | ⟨h, _⟩ | ⟨h, _⟩
          · exact h
          · rw [hp] at h; cases h
          · rw [hp] at h; cases h
      rcases phase_setup e2 with ⟨g1, _, g2⟩ | ⟨_, g1⟩
      · exact ⟨_, by simp, g1, g2⟩
      · obtain ⟨q, hq, hq'⟩ := ih m e2 g1 (by omega)
        exact ⟨q, by simp [hq], hq'⟩
  obtain ⟨n, hi, hn⟩ := reach_inv h
  by_cases h0 : 0 < n
  · exact key hr n hi h0 (by omega)
  · cases hr with
    | nil => simp at hl
    | cons hc hs hr =>
      simp only [List.length_cons] at hl
      obtain ⟨m, hi', hm⟩ := reach_inv (.step h hc hs)
      rcases phase_setup hi' with ⟨g1, _, g2⟩ | ⟨_, g1⟩
      · exact ⟨_, by simp, g1, g2⟩
      · obtain ⟨q, hq, hq'⟩ := key hr m hi' g1 (by omega)
        exact ⟨q, by simp [hq], hq'⟩

/-- C68: the test never has more than sixteen messages in the mailbox of the controller, one in the mailbox of the Modbus
component and one frame in each direction. -/
theorem C68_mailboxes {rnd : Nat → UInt8} {k : Nat} {p : Plant} (h : Reach rnd k p) :
    p.toCtl.length ≤ 16 ∧ p.toMod.length ≤ 1 ∧ p.up.length ≤ 1 ∧ p.down.length ≤ 1 := by
  obtain ⟨n, ⟨t, d, v, c, wr, hb, hph⟩, _⟩ := reach_inv h
  cases hph with
  | sent st ar ct hc hs h0 h1 h2 h3 h4 => simp [h0, h1, h2, h3]
  | setup st ar hc hs h0 h1 h2 h3 hp h4 => simp [h0, h1, h2, h3]
  | run st ar ct hl hp h0 h4 hw hm hst =>
    have hlen := length_of hp
    rw [h0]
    cases hst with
    | none hc hs h1 h2 h3 => simp [h1, h2, h3]; omega
    | up hk hc hs h1 h2 h3 => simp [h1, h2, h3]; omega
    | fwd hk hc hs hf h1 h2 h3 =>
      simp only [List.length_singleton] at hlen
      simp [h1, h2, h3]; omega
    | rsp hk hc hs hw h1 h2 h3 => simp [h1, h2, h3]; omega
    | down hk hc hs hw hd h1 h2 h3 => simp [h1, h2, h3]; omega
    | mute hk hc hs h1 h2 h3 => simp [h1, h2, h3]; omega

/-! ## The start of the program -/

/-- What happens before the first round: the controller is started and gets the answers to its init and configuration requests
(ControllerComponent.cpp:38-60, ModbusTestInit.cpp:14-28, ModbusTestConfigure.cpp:14-18); the Modbus component makes one client
and one server (Modbus.cpp:20-63); the client connects, the server accepts. -/
def startup (rnd : Nat → UInt8) (m : Mem) (ms : Nat → Mem) (as : Nat → AduReq) : Exec Plant := do
  let (c, _) ← Ctl.create.step rnd (.start true)
  let (c, _) ← c.step rnd .modbusInitRsp
  let (d, _) ← (Dispatcher.create 1 1).step (.config
    [⟨0, .inl m, .ok⟩, ⟨0, .inr (Server.create (fun i => Session.create (ms i) (as i)) 31 31), .ok⟩])
  let (d, _) ← d.step (.client 0 .connected)
  let (d, _) ← d.step (.server 0 (.accept true))
  let (c, o) ← c.step rnd .modbusConfigRsp
  pure { ctl := c, mod := some d, toCtl := [], toMod := o.filterMap fromCtl, up := [], down := [], got := [] }

/-- C68: the start of the program leads to a state from which the self-test is calm. -/
theorem C68_start (rnd : Nat → UInt8) (m : Mem) (ms : Nat → Mem) (as : Nat → AduReq) :
    ∃ p, startup rnd m ms as = .ok p ∧ Start rnd 0 p := by
  refine ⟨_, rfl, ⟨⟨_, rfl, rfl, rfl, rfl, rfl⟩, ⟨_, _, _, rfl, rfl, rfl, rfl, rfl, ?_, rfl, rfl, rfl, rfl⟩, by omega, rfl, rfl,
    rfl, rfl, rfl⟩⟩
  exact ⟨rfl, rfl, rfl, rfl, rfl, rfl, rfl, rfl, Nat.zero_le 255⟩

/-- Calm executions go on for ever. -/
theorem calm_run {rnd : Nat → UInt8} {k : Nat} : ∀ (n : Nat) {p : Plant}, Reach rnd k p → ∃ qs, Run rnd k p qs ∧ qs.length = n
  | 0, p, _ => ⟨[], .nil p, rfl⟩
  | n + 1, p, h => by
    obtain ⟨e, he⟩ := C68_alive h
    obtain ⟨q, hq, _⟩ := (C68_succeeds h).2.2 e he
    obtain ⟨qs, h1, h2⟩ := calm_run n (.step h he hq)
    exact ⟨q :: qs, .cons he hq h1, by simp [h2]⟩

/-- The program reaches the end of a round, with transaction 4 answered by the first two bytes of the register file. -/
example : ∃ p q, startup (fun i => UInt8.ofNat (7 * i + 5)) (fun _ => 0) (fun _ _ => 0)
      (fun _ => ⟨0, 0, 0, 0, 0, 0, 0, fun _ => 0, 0⟩) = .ok p ∧
    Reach (fun i => UInt8.ofNat (7 * i + 5)) 0 p ∧ (∃ qs, Run (fun i => UInt8.ofNat (7 * i + 5)) 0 p qs ∧ q ∈ qs) ∧
    q.test = some .setup ∧ ⟨0, 4, true, 0, [5, 12]⟩ ∈ q.got := by
  obtain ⟨p, h1, h2⟩ := C68_start (fun i => UInt8.ofNat (7 * i + 5)) (fun _ => 0) (fun _ _ => 0)
    (fun _ => ⟨0, 0, 0, 0, 0, 0, 0, fun _ => 0, 0⟩)
  obtain ⟨qs, h3, h4⟩ := calm_run 126 (.start h2)
  obtain ⟨q, h5, h6, h7⟩ := C68_rounds (.start h2) h3 (by omega)
  exact ⟨p, q, h1, .start h2, ⟨qs, h3, h5⟩, h6, h7.mem_iff.2 (by simp [expected])⟩

/-! ## The other outcome -/

/-- A client that refuses all requests. -/
structure Away (c : Client) : Prop where
  st : c.st = .init ∨ c.st = .connect ∨ c.st = .backoff
  pending : c.pending = []

theorem away_refuses {c : Client} (h : Away c) {r : CallerReq} {d : List UInt8} (hb : r.numBytes ≤ 260) (hd : r.data = some d)
    (hn : r.numBytes ≤ d.length) : c.step (.req r) = .ok (c, [.rsp ⟨r.clientId, r.transactId, false, 0, []⟩]) := by
  have hcap : AduStorage.capacity = 64 := rfl
  have hA : maxAduLen = 260 := rfl
  have hpush : Client.storePush [] r = .ok ([] ++ [AduStorage.pendingOf r], true) := by
    unfold Client.storePush
    rw [if_pos ⟨by simp [hcap], by omega⟩, hd]
    simp only
    rw [if_pos hn]
  obtain ⟨st, pending, pdu, timer, opened⟩ := c
  obtain ⟨h1, h2⟩ := h
  simp only at h1 h2
  subst h2
  simp only [Client.step, hpush, Exec.ok_bind, if_true]
  rcases h1 with rfl | rfl | rfl <;> rfl

/-- The answer of a client that is not connected, or of the component if there is no such client. -/
def refusal (r : CallerReq) : Controller.Ev := .modbusClientAduRsp ⟨r.clientId, r.transactId, false, 0, []⟩

theorem batch_away {d : Dispatcher} {c : Client} (hn : d.numClients = 1) (hc : d.clients 0 = some c) (ha : Away c) :
    ∀ rs : List CallerReq, (∀ r ∈ rs, r.numBytes ≤ 260 ∧ ∃ x, r.data = some x ∧ r.numBytes ≤ x.length) →
    ∃ o, d.batch rs = .ok (d, o) ∧ o.filterMap toCtlOf = rs.map refusal ∧ o.filterMap upOf = [] ∧ o.filterMap downOf = [] := by
  intro rs
  have hd : { d with clients := Dispatcher.upd d.clients 0 c } = d := by
    have : Dispatcher.upd d.clients 0 c = d.clients := by
      funext j
      unfold Dispatcher.upd
      split
      · next h => rw [h, hc]
      · rfl
    rw [this]
  induction rs with
  | nil => intro _; exact ⟨[], rfl, rfl, rfl, rfl⟩
  | cons r rs ih =>
    intro h
    obtain ⟨h1, x, h2, h3⟩ := h r (by simp)
    obtain ⟨o, e1, e2, e3, e4⟩ := ih (fun r' hr => h r' (by simp [hr]))
    by_cases hr : r.clientId = 0
    · have hitem : d.item r = .ok (d, [.client 0 (.rsp ⟨r.clientId, r.transactId, false, 0, []⟩)]) := by
        unfold Dispatcher.item
        rw [if_neg (by omega), hr, hc]
        simp only [away_refuses ha h1 h2 h3, Exec.ok_bind, Exec.pure_eq, List.map_cons, List.map_nil, hd, hr]
      refine ⟨.client 0 (.rsp ⟨r.clientId, r.transactId, false, 0, []⟩) :: o, ?_, ?_, ?_, ?_⟩
      · simp only [Dispatcher.batch, hitem, Exec.ok_bind, e1, Exec.pure_eq, List.cons_append, List.nil_append]
      · simp [toCtlOf, e2, refusal]
      · exact e3
      · exact e4
    · have hitem : d.item r = .ok (d, [.reject ⟨r.clientId, r.transactId, false, 0, []⟩]) := by
        unfold Dispatcher.item
        rw [if_pos (by omega)]
      refine ⟨.reject ⟨r.clientId, r.transactId, false, 0, []⟩ :: o, ?_, ?_, ?_, ?_⟩
      · simp only [Dispatcher.batch, hitem, Exec.ok_bind, e1, Exec.pure_eq, List.cons_append, List.nil_append]
      · simp [toCtlOf, e2, refusal]
      · exact e3
      · exact e4

/-- C68: if the client is not connected when the requests arrive, the test is judged failed at the first answer and the Modbus
component is released; the other answers come to a test that no longer looks at them. -/
theorem C68_unconnected {rnd : Nat → UInt8} {k : Nat} {p : Plant} {t : Test} {d : Dispatcher} {c : Client}
    (ht : p.ctl.modbus = some t) (st : t.st = .run) (ct : t.counter = 0) (cs : t.cases = testCases rnd) (hm : p.mod = some d)
    (hn : d.numClients = 1) (hc : d.clients 0 = some c) (hs : c.st = .init ∨ c.st = .connect ∨ c.st = .backoff)
    (hp : c.pending = []) (h0 : p.toCtl = []) (h1 : p.toMod = [.batch (batch (testCases rnd))]) :
    ∃ q q', p.step rnd k .modMsg = .ok q ∧
      q.toCtl = (List.range 16).map (fun i => .modbusClientAduRsp ⟨if i = 12 then 99 else 0, i, false, 0, []⟩) ∧
      q.step rnd k .ctlMsg = .ok q' ∧ q'.test = some .init ∧ q'.toMod = [.release] := by
  obtain ⟨o, k1, k2, k3, k4⟩ := batch_away hn hc ⟨hs, hp⟩ ((List.range 16).map (creq rnd)) (by
    intro r hr
    obtain ⟨i, hi, rfl⟩ := List.mem_map.1 hr
    obtain ⟨f1, f2, f3, _⟩ := creq_fits rnd (List.mem_range.1 hi)
    exact ⟨f1, _, f2, f3⟩)
  have hcl : ((List.range 16).map (creq rnd)).map refusal =
      (List.range 16).map (fun i => Controller.Ev.modbusClientAduRsp ⟨if i = 12 then 99 else 0, i, false, 0, []⟩) := by
    rw [List.map_map]
    apply List.map_congr_left
    intro i hi
    have hi := List.mem_range.1 hi
    have hpe := pend_eq rnd hi
    have g1 : (creq rnd i).clientId = (pend rnd i).clientId := rfl
    have g2 : (creq rnd i).transactId = (pend rnd i).transactId := rfl
    have hbd := kase_bounds rnd hi
    have h3 : (pend rnd i).clientId = if i = 12 then 99 else 0 := by
      rw [hpe]
      have : i = 0 ∨ i = 1 ∨ i = 2 ∨ i = 3 ∨ i = 4 ∨ i = 5 ∨ i = 6 ∨ i = 7 ∨ i = 8 ∨ i = 9 ∨ i = 10 ∨ i = 11 ∨ i = 12 ∨ i = 13 ∨
          i = 14 ∨ i = 15 := by omega
      rcases this with rfl | rfl | rfl | rfl | rfl | rfl | rfl | rfl | rfl | rfl | rfl | rfl | rfl | rfl | rfl | rfl <;> rfl
    have h4 : (pend rnd i).transactId = i := by rw [hpe]
    show refusal (creq rnd i) = _
    unfold refusal
    rw [g1, g2, h3, h4]
  have hstep : p.step rnd k .modMsg = .ok { p with
      toMod := [], mod := some d, toCtl := p.toCtl ++ o.filterMap toCtlOf, up := p.up ++ o.filterMap upOf,
      down := p.down ++ o.filterMap downOf } := by
    show (match p.toMod with | [] => _ | m :: ms => _) = _
    rw [h1]
    show Plant.onMod _ _ = _
    exact (onMod_eq (p := { p with toMod := [] }) (d := d) (d' := d) (o := o) (e := .batch ((batch (testCases rnd)).map callerOf))
      hm (by rw [batch_eq]; exact k1))
  rw [k2, k3, k4, h0, hcl, List.nil_append, List.append_nil, List.append_nil] at hstep
  obtain ⟨tst, tc, tn, ta⟩ := t
  simp only at st ct cs
  subst st; subst ct; subst cs
  have hck : (Test.mk .run (testCases rnd) 0 ta).check ⟨0, 0, false, 0, []⟩ = .ok (⟨.run, testCases rnd, 1, ta⟩, .error) := rfl
  refine ⟨_, { p with
      ctl := { p.ctl with modbus := some ⟨.init, testCases rnd, 1, ta⟩ }, mod := some d, toMod := [.release],
      toCtl := (List.range 15).map (fun i => .modbusClientAduRsp ⟨if i + 1 = 12 then 99 else 0, i + 1, false, 0, []⟩),
      got := p.got ++ [⟨0, 0, false, 0, []⟩] }, hstep, rfl, ?_, rfl, rfl⟩
  have hr : List.range 16 = 0 :: (List.range 15).map (· + 1) := rfl
  rw [hr]
  simp only [List.map_cons, Plant.step, Plant.onCtl, Ctl.step, Ctl.onTestE, ht, Test.onClientAduRsp, if_neg (show ¬ (0 = 12) by omega),
    hck, Exec.ok_bind, Exec.pure_eq]
  rfl

/-- The requests arrive before the client was started. -/
example (rnd : Nat → UInt8) : ∃ p q q' : Plant, p.test = some .run ∧ p.step rnd 0 .modMsg = .ok q ∧ q.toCtl.length = 16 ∧
    q.step rnd 0 .ctlMsg = .ok q' ∧ q'.test = some .init ∧ q'.toMod = [.release] := by
  obtain ⟨q, q', h1, h2, h3⟩ := C68_unconnected (rnd := rnd) (k := 0)
    (p := { ctl := ⟨some ⟨.run, testCases rnd, 0, false⟩, none⟩,
            mod := some { Dispatcher.create 1 1 with clients := fun _ => some (Client.create fun _ => 0) },
            toCtl := [], toMod := [.batch (batch (testCases rnd))], up := [], down := [], got := [] })
    rfl rfl rfl rfl rfl rfl rfl (.inl rfl) rfl rfl rfl
  exact ⟨_, q, q', rfl, h1, by rw [h2]; simp, h3⟩

end Uscada.SelfTest
