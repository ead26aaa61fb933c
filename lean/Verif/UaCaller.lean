import Verif.UaMeet
import Verif.UaVisits

/-!
# C110: the library's client and the server program

`OpcUaClientSecureChannel` on `ClientConnection` (common/ua/protocols) with the bytes that the server program of `cpu3` (ua/tcp, ua/secure, ua/session) writes, and
the program with the bytes that this client writes.
-/

namespace Uscada.Ua

open Wire (wire)

namespace Stack

open SM
open Transport (chunk helloChunk HoldsChunk)

variable {m : Nat → Mem} {u : Nat → UInt32 × UInt32} {evs : List (Env × Ev)} {s : Stack}

/-- The first part of C81's `arrives`: a link is accepted. -/
theorem accepts (h : Reach m u evs s) (hf : s.srv.ids.len ≠ 0) (hbox : s.box = []) {e : Env} (h1 : Fair e) : ∃ k s', Pool.valid k ∧ (s.srv.conns k).link = false ∧
    run s [(e, .net .accept)] = .ok s' ∧ Reach m u (evs ++ [(e, .net .accept)]) s' ∧ (s'.srv.conns k).st = .hello ∧ (s'.srv.conns k).link = true ∧
    (s'.srv.conns k).opened = true ∧ Blank s' k ∧ s'.box = [] ∧ s'.chans = s.chans ∧ s'.sess = s.sess ∧ ∀ j, j ≠ k → s'.srv.conns j = s.srv.conns j := by
  obtain ⟨tevs, _, _, ht, -⟩ := reach_parts h
  obtain ⟨k, t, hk, hl0, -, hn1, htk, hto⟩ := Transport.accept_run ht hf h1.linkFree h1.accepts h1.timerFree h1.starts
  have hsent : sentTcp s.srv t = [] := by
    rw [sentTcp_eq hk (by rw [htk]) hto]
    rfl
  have hs1 := step_net (s := s) (e := e) hn1 (by rw [hsent]; intro y hy; cases hy) (by
    rw [hbox, hsent]; have := h1.others; simp only [List.length_nil]; omega)
  rw [hsent, hbox, List.append_nil] at hs1
  refine ⟨k, { s with srv := t, box := [] }, hk, hl0, by rw [run_cons hs1]; rfl, h.step ⟨rfl, trivial⟩ hs1, ?_, ?_, ?_, ?_, rfl, rfl, rfl, hto⟩
  · show (t.conns k).st = _; rw [htk]
  · show (t.conns k).link = _; rw [htk]
  · show (t.conns k).opened = _; rw [htk]
  · show (t.conns k).rx.tail = 0 ∧ (t.conns k).rx.head = 0; rw [htk]; exact ⟨rfl, rfl⟩

/-- The second part: the hello is acknowledged. -/
theorem acknowledges (h : Reach m u evs s) {k : Nat} (hk : Pool.valid k) (hst : (s.srv.conns k).st = .hello) (hl : (s.srv.conns k).link = true)
    (ho : (s.srv.conns k).opened = true) (hbox : s.box = []) {e : Env} (h2 : Fair e) {v : HelloMessage} {body : List UInt8} (hs : std false v body)
    (hn : body.length ≤ 4088) (hb : Brings s e k (helloChunk body)) : ∃ s', step s e (.net (.linkData k)) = .ok s' ∧
    Reach m u (evs ++ [(e, .net (.linkData k))]) s' ∧ (s'.srv.conns k).log = (s.srv.conns k).log ++ [.sent ackFrame] ∧ (s'.srv.conns k).st = .connected ∧
    (s'.srv.conns k).link = true ∧ (s'.srv.conns k).opened = true ∧ Blank s' k ∧ s'.box = [] ∧ s'.chans = s.chans ∧ s'.sess = s.sess ∧
    ∀ j, j ≠ k → s'.srv.conns j = s.srv.conns j := by
  obtain ⟨b, hrecv, hold⟩ := hb
  obtain ⟨tevs2, _, _, ht2, -⟩ := reach_parts h
  obtain ⟨t2, rx, hn2, ht2k, hrx1, hrx2, ht2o⟩ := Transport.hello_run ht2 hk hst ho (e := e.tcp) h2.starts h2.writes hrecv hs hn hold
  have hsent2 : sentTcp s.srv t2 = [] := by
    rw [sentTcp_eq hk (by rw [ht2k]) ht2o]
    rfl
  have hs2 := step_net (s := s) (e := e) hn2 (by rw [hsent2]; intro y hy; cases hy)
    (by rw [hbox, hsent2]; have := h2.others; simp only [List.length_nil]; omega)
  rw [hsent2, hbox, List.append_nil] at hs2
  refine ⟨_, hs2, h.step (e := e) (v := .net (.linkData k)) ⟨rfl, hk, hl⟩ hs2, ?_, ?_, ?_, ?_, ?_, rfl, rfl, rfl, ht2o⟩
  · show (t2.conns k).log = _; rw [ht2k]
  · show (t2.conns k).st = _; rw [ht2k]
  · show (t2.conns k).link = _; rw [ht2k]; exact hl
  · show (t2.conns k).opened = _; rw [ht2k]; exact ho
  · show (t2.conns k).rx.tail = 0 ∧ (t2.conns k).rx.head = 0
    rw [ht2k]
    exact ⟨hrx1, hrx2⟩

/-- Other bytes in the buffer of connection `k`. -/
def stored (s : Stack) (k : Nat) (b : Buf) : Stack := { s with srv := s.srv.set k { (s.srv.conns k) with rx := b } }

theorem stored_self (s : Stack) (k : Nat) : stored s k (s.srv.conns k).rx = s := by
  have : s.srv.set k { (s.srv.conns k) with rx := (s.srv.conns k).rx } = s.srv := by
    unfold Srv.set
    congr 1
    funext i
    by_cases hi : i = k
    · simp [hi]
    · simp [hi]
  unfold stored
  rw [this]

theorem stored_at (s : Stack) (k : Nat) (b : Buf) : (stored s k b).srv.conns k = { (s.srv.conns k) with rx := b } := by simp [stored, Srv.set]

theorem stored_other (s : Stack) {k j : Nat} (b : Buf) (hj : j ≠ k) : (stored s k b).srv.conns j = s.srv.conns j := by simp [stored, Srv.set, hj]

/-- A piece that does not complete a chunk is stored. -/
theorem stores {k : Nat} (hk : Pool.valid k) (hst : (s.srv.conns k).st ≠ .init) (hl : (s.srv.conns k).link = true) (ho : (s.srv.conns k).opened = true) (hbox : s.box = [])
    {e : Env} (he : Calm e) {x : List UInt8} {c c' : Buf} (hr : receive true (.ok x) c = .ok (.noerror, c')) :
    step (stored s k c) (e.brings x) (.net (.linkData k)) = .ok (stored s k c') := by
  have hn : Transport.next (stored s k c).srv (e.brings x).tcp (.linkData k) = .ok (stored s k c').srv := by
    have hset : ((stored s k c).srv.set k { (s.srv.conns k) with rx := c' }) = (stored s k c').srv := by
      unfold stored Srv.set
      simp only
      congr 1
      funext i
      by_cases hi : i = k
      · simp [hi]
      · simp [hi]
    show settle (Transport.onData k (e.brings x).tcp (stored s k c).srv) = _
    rw [← hset]
    cases h : (s.srv.conns k).st with
    | init => exact absurd h hst
    | hello =>
      simp only [Transport.onData, bind_run, self, andThen, stored_at, h, Transport.receiveHello, Transport.receiveRx, hl, if_true, ho, Env.brings, hr, lift,
        conn, SM.modify, pure_run]
      rfl
    | connected =>
      simp only [Transport.onData, bind_run, self, andThen, stored_at, h, Transport.receiveSecuredMessage, Transport.receiveRx, hl, if_true, ho, Env.brings, hr, lift,
        conn, SM.modify, pure_run]
      rfl
  have hsent : sentTcp (stored s k c).srv (stored s k c').srv = [] := by
    rw [sentTcp_eq (new := []) hk (by rw [stored_at, stored_at, List.append_nil]) fun j hj => by rw [stored_other _ _ hj, stored_other _ _ hj]]
    rfl
  have hs := step_net (s := stored s k c) (e := e.brings x) hn (by rw [hsent]; intro y hy; cases hy)
    (by rw [hsent]; show s.box.length + 0 + e.others ≤ _; rw [hbox]; have := he.others; simp only [List.length_nil]; omega)
  rw [hs, hsent]
  show Exec.ok { s with srv := _, box := s.box ++ [] } = _
  rw [List.append_nil]
  rfl

/-- What the network brings to connection `k`. -/
def carried (k : Nat) (s : Stack) (xs : List (Env × List UInt8)) : Exec Stack := feedAll (fun s e x => step s (e.brings x) (.net (.linkData k))) s xs

/-- In pieces, a chunk of at most 1024 bytes is as good as whole. -/
theorem carried_pieces (h : Reach m u evs s) {k : Nat} (hk : Pool.valid k) (hst : (s.srv.conns k).st ≠ .init) (hl : (s.srv.conns k).link = true)
    (ho : (s.srv.conns k).opened = true) (hbox : s.box = []) (hbl : Blank s k) {cut : List UInt8 → List (Env × List UInt8)} (hn : Net Fair cut) {d : List UInt8}
    (hd : IsChunk d) (hlen : d.length ≤ 1024) : ∃ e c x more, Fair e ∧ Reach m u (evs ++ more) (stored s k c) ∧ Brings (stored s k c) (e.brings x) k d ∧
      carried k s (cut d) = step (stored s k c) (e.brings x) (.net (.linkData k)) := by
  obtain ⟨e, c, x, h1, ⟨more, h2⟩, h3, h4⟩ := feed_keeps (σ := Stack) (next := fun s e x => step s (e.brings x) (.net (.linkData k))) hn
    (P := fun z => ∃ more, Reach m u (evs ++ more) z) (mk := stored s k) hbl.1 hbl.2 ⟨[], by rw [stored_self, List.append_nil]; exact h⟩
    (fun e x c c' he ⟨more, hP⟩ hr => by
      have := stores hk hst hl ho hbox he.toCalm hr
      refine ⟨this, more ++ [(e.brings x, .net (.linkData k))], ?_⟩
      rw [← List.append_assoc]
      exact hP.step (e := e.brings x) (v := .net (.linkData k)) ⟨rfl, hk, by rw [stored_at]; exact hl⟩ this) hd hlen
  refine ⟨e, c, x, more, h1, h2, ⟨(s.srv.conns k).rx.append d, ?_, hbl.1, memRead_append _ [] d (by rw [hbl.2]; rfl)⟩, by rw [stored_self] at h4; exact h4⟩
  rw [stored_at]
  show receive (s.srv.conns k).opened (.ok x) c = _
  rw [ho]
  exact h3

end Stack

/-- The circumstances of a call: the client opens, the network is up, the four messages arrive in pieces, the timer of the client runs out; `env`: the program accepts the
connection, its messages to itself are delivered, it reads the end of the stream. -/
structure Dial where
  kopen : KEnv
  kup : KEnv
  hello : List UInt8 → List (Stack.Env × List UInt8)
  ack : List UInt8 → List (KEnv × List UInt8)
  request : List UInt8 → List (Stack.Env × List UInt8)
  answer : List UInt8 → List (KEnv × List UInt8)
  kend : KEnv
  env : Nat → Stack.Env

/-- Nothing is missing, and the user does nothing when they are told of the end. -/
structure Dial.Fine (d : Dial) : Prop where
  kopen : Cli.Good d.kopen
  kup : Cli.Fine d.kup
  hello : Net Stack.Fair d.hello
  ack : Net Cli.Fine d.ack
  request : Net Stack.Fair d.request
  answer : Net Cli.Fine d.answer
  kend : Cli.Good d.kend ∧ d.kend.react = []
  env : ∀ i, Stack.Fair (d.env i)

/-- The client calls the program, which accepts on connection `k`. -/
def dial (d : Dial) (k : Nat) (p : Cli) (s : Stack) : Exec (Cli × Stack) := do
  let p1 ← p.run [(d.kopen, .user .open), (d.kup, .linkConnected)]
  let s1 ← Stack.run s [(d.env 0, .net .accept)]
  let s2 ← Stack.carried k s1 (d.hello (written p1.conn.log))
  let p2 ← p1.run (Cli.receives (d.ack (Stack.written s1 s2 k).flatten))
  let s3 ← Stack.carried k s2 (d.request (Cli.sentLast p2.log))
  let s4 ← Stack.run s3 [(d.env 1, .deliver), (d.env 2, .deliver)]
  let p3 ← p2.run (Cli.receives (d.answer (Stack.written s2 s4 k).flatten))
  pure (p3, s4)

/-- The timer of the client runs out, and the program reads the end of the stream. -/
def hang (d : Dial) (k : Nat) (p : Cli) (s : Stack) : Exec (Cli × Stack) := do
  let p' ← p.next d.kend .timer
  let s' ← Stack.run s [((d.env 3).fails, .net (.linkData k)), (d.env 4, .deliver)]
  pure (p', s')

theorem own_chunk (id : UInt32) (x : List UInt8) : Transport.chunk .opn 0x46 id x = Peer.chunk Peer.opn id x := by
  unfold Transport.chunk Peer.chunk Peer.opn
  simp [Transport.letters]

/-- The bytes of the client's request behind the channel identifier. -/
def ownOpen : List UInt8 := wire (Ua.init : UaSecurityHeader) ++ (wire (⟨0, 0⟩ : UaSequenceHeader) ++ wire (Cont.make 446 (Ua.init : UaOpenSecureChannelReq)))

theorem ownOpen_says : Channel.SaysOpen (Ua.init : UaSecurityHeader) ⟨0, 0⟩ (Cont.make 446 (Ua.init : UaOpenSecureChannelReq)) ownOpen :=
  Channel.says_open (Cli.sec_ok [] (Nat.two_pow_pos 31)) Cli.request_ok

/-- C110: from every reachable state of the server program with an empty mailbox, a free connection and a free channel, an idle client of the library, whatever it did before, opens a
secure channel with the program, however the network cuts the four messages: the client has sent one open request and accepted the answer, which is what the program wrote;
its user was not told of an error.  The program has given the client a free connection and a free channel, on which it is ready for requests (C66), and has left the other
connections, channels and all sessions alone. -/
theorem C110_opens {p : Cli} {s : Stack} {m : Nat → Mem} {u : Nat → UInt32 × UInt32} {evs : List (Stack.Env × Stack.Ev)} {d : Dial} (hp : p.Idle)
    (h : Stack.Reach m u evs s) (hbox : s.box = []) (h1 : s.srv.ids.len ≠ 0) (h2 : s.chans.ids.len ≠ 0) (hd : d.Fine) : ∃ k p' s' request ch t tx ans more,
    dial d k p s = .ok (p', s') ∧ (s.srv.conns k).link = false ∧ Channel.owner (s.chans.objs ch.toNat).log = none ∧
    p'.log = p.log ++ [.opening, .connected, .sent request true, .got (Transport.chunk .opn 0x46 ch ans), .accepted] ∧ p'.st = .established ∧ Ready p'.conn ∧
    Channel.AnswersOpen ans ch t tx 0 0 0 ∧ Stack.Ready s' k ch ⟨UInt32.ofNat k, t, 0, false⟩ ∧ Stack.Reach m u (evs ++ more) s' ∧
    s'.sess = s.sess ∧ s.chans.ids.len = s'.chans.ids.len + 1 ∧ (∀ j, j ≠ k → s'.srv.conns j = s.srv.conns j) ∧
    (∀ j, j ≠ ch.toNat → s'.chans.objs j = s.chans.objs j) ∧ (∃ es, Cli.From es p' ∧ ∀ x ∈ es, Cli.Good x.1) := by
  obtain ⟨c1, g1, w1, l1⟩ := Cli.opens_link hp.st hp.conn hd.kopen hd.kup
  have hh : written c1.log = Transport.helloChunk (wire ownHello) := by
    rw [l1, show p.conn.log ++ [Act.attempt, Act.sent helloFrame] = (p.conn.log ++ [Act.attempt]) ++ [Act.sent helloFrame] by simp, written_last]
    decide +kernel
  obtain ⟨k, s1, hk, hl0, z1, z2, z3, z4, z5, z6, z7, z8, z9, z10⟩ := Stack.accepts h h1 hbox (hd.env 0)
  obtain ⟨e1, d1, x1, n1, he1, y1, y2, y3⟩ := Stack.carried_pieces z2 hk (by rw [z3]; simp) z4 z5 z7 z6 hd.hello (d := Transport.helloChunk (wire ownHello))
    (Transport.sizeField_hello (by decide +kernel)) (by decide +kernel)
  obtain ⟨s2, a1, a2, a3, a4, a5, a6, a7, a8, a9, a10, a11⟩ := Stack.acknowledges y1 hk (by rw [Stack.stored_at]; exact z3) (by rw [Stack.stored_at]; exact z4)
    (by rw [Stack.stored_at]; exact z5) z7 (e := e1.brings x1) ⟨Stack.calm_brings he1.toCalm x1, he1.linkFree, he1.accepts, he1.timerFree⟩ ownHello_std (by decide +kernel) y2
  rw [Stack.stored_at] at a3
  have hc2 : s2.chans = s.chans := a9.trans z8
  have hs2 : s2.sess = s.sess := a10.trans z9
  have ho2 : ∀ j, j ≠ k → s2.srv.conns j = s.srv.conns j := fun j hj => by rw [a11 j hj, Stack.stored_other _ _ hj, z10 j hj]
  obtain ⟨c2, g2, r3, t3, l3⟩ := Cli.acknowledged (p := { p with conn := c1, st := .connecting, log := p.log ++ [.opening] }) w1 rfl hd.ack
  have hq : Cli.sentLast (p.log ++ [.opening] ++ [.connected] ++ [.sent Cli.openRequest true]) = Transport.chunk .opn 0x46 0 ownOpen := by
    unfold Cli.sentLast
    rw [List.filterMap_append, own_chunk]
    simp [Cli.request_chunk, ownOpen]
  obtain ⟨e2, d2, x2, n2, he2, v1, v2, v3⟩ := Stack.carried_pieces a2 hk (by rw [a4]; simp) a5 a6 a8 a7 hd.request (d := Transport.chunk .opn 0x46 0 ownOpen)
    (Stack.isChunk_chunk .opn 0x46 0 (by decide +kernel)) (by decide +kernel)
  obtain ⟨s3, ch, ans, tx, x, b1, b2, b3, b4, b5, b6, b7, b8, b9, b10, b11⟩ := Stack.C66_open v1 (by show s2.chans.ids.len ≠ 0; rw [hc2]; exact h2) hk
    (by rw [Stack.stored_at]; exact a4) (by rw [Stack.stored_at]; exact a6) a8 (Stack.calm_brings he2.toCalm x2) (hd.env 1).toCalm (hd.env 2).toCalm (flag := 0x46) (c0 := 0)
    _ _ _ ownOpen_says (by decide +kernel) v2
  rw [Stack.stored_at] at b5
  have hb1 : (Stack.carried k s2 (d.request (Transport.chunk .opn 0x46 0 ownOpen)) >>= fun s3 => Stack.run s3 [(d.env 1, .deliver), (d.env 2, .deliver)]) = .ok s3 := by
    rw [v3]
    exact b1
  obtain ⟨hans, hlen⟩ := answer_own b4
  generalize hp2 : ({ p with conn := c2, st := .waiting, log := p.log ++ [.opening] ++ [.connected] ++ [.sent Cli.openRequest true] } : Cli) = p2 at *
  have hrp : Ready p2.conn := by rw [← hp2]; exact r3
  have hlogp : p2.log = p.log ++ [.opening] ++ [.connected] ++ [.sent Cli.openRequest true] := by rw [← hp2]
  obtain ⟨f, hf, hrun2⟩ := Cli.whole_net hrp hd.answer (Cli.answer_type hans).1 (by omega)
  obtain ⟨p3, q1, q2, q3, q4⟩ := Cli.C58_accepts_partial (e := Cli.brings f (Peer.chunk Peer.opn ch ans)) hrp (by rw [← hp2]) hans rfl (by decide)
  have hreach := Cli.reach_run (Cli.reach_run (Cli.reach_run hp.reach (by
    intro x hx
    simp only [List.mem_cons, List.not_mem_nil, or_false] at hx
    rcases hx with rfl | rfl
    · exact hd.kopen
    · exact hd.kup.good) g1) (Cli.receives_good hd.ack _) g2) (Cli.receives_good hd.answer _) (hrun2.trans q1)
  refine ⟨k, p3, s3, Cli.openRequest, ch, (d.env 1).chan.token, tx, ans, _, ?_, hl0, by rw [← hc2]; exact b3, ?_, q2, q4, b4, b6, by
    simp only [List.append_assoc] at b2; exact b2,
    b8.trans hs2, by rw [← hc2]; exact b11, fun j hj => by rw [b9.1 j hj, Stack.stored_other _ _ hj, ho2 j hj], fun j hj => by rw [b9.2 j hj, ← hc2]; rfl, hreach⟩
  · unfold dial
    rw [g1, Exec.ok_bind, z1, Exec.ok_bind]
    show (Stack.carried k s1 (d.hello (written c1.log)) >>= _) = _
    rw [hh, y3, a1, Exec.ok_bind, Stack.written_eq a3]
    show (Cli.run _ (Cli.receives (d.ack [ackFrame].flatten)) >>= _) = _
    rw [show [ackFrame].flatten = ackFrame by simp, g2, Exec.ok_bind, hlogp, hq]
    generalize Stack.carried k s2 (d.request (Transport.chunk .opn 0x46 0 ownOpen)) = r at hb1
    cases r with
    | ok s4 =>
      have hb1 : Stack.run s4 [(d.env 1, .deliver), (d.env 2, .deliver)] = .ok s3 := hb1
      show (Stack.run s4 [(d.env 1, .deliver), (d.env 2, .deliver)] >>= _) = _
      rw [hb1, Exec.ok_bind, Stack.written_eq b5]
      show (p2.run (Cli.receives (d.answer [Transport.chunk .opn 0x46 ch ans].flatten)) >>= _) = _
      rw [own_chunk, show ∀ x : List UInt8, [x].flatten = x by simp, hrun2, q1]
      rfl
    | throws => cases hb1
    | abort => cases hb1
    | ub => cases hb1
  · rw [q3, hlogp, own_chunk]
    simp only [List.append_assoc, List.cons_append, List.nil_append]

/-- Calls one after the other, each on a connection that the program has free. -/
def Calls : List Dial → Cli → Stack → Cli → Stack → Prop
  | [], p, s, p', s' => p' = p ∧ s' = s
  | d :: ds, p, s, p', s' => ∃ k p1 s1 p2 s2, (s.srv.conns k).link = false ∧ dial d k p s = .ok (p1, s1) ∧ hang d k p1 s1 = .ok (p2, s2) ∧ (s2.srv.conns k).link = false ∧
    Calls ds p2 s2 p' s'

/-- C110: the same client calls again and again.  Each call opens one channel and ends when the client's timer runs out, of which its user is told once; there are no errors.  Behind the
calls the program has as many connections and channels free as before, and its mailbox is empty. -/
theorem C110_again {p : Cli} {s : Stack} {m : Nat → Mem} {u : Nat → UInt32 × UInt32} {evs : List (Stack.Env × Stack.Ev)} (hp : p.Idle) (h : Stack.Reach m u evs s)
    (hbox : s.box = []) (h1 : s.srv.ids.len ≠ 0) (h2 : s.chans.ids.len ≠ 0) (ds : List Dial) (hd : ∀ d ∈ ds, d.Fine) : ∃ p' s' l more,
    Calls ds p s p' s' ∧ p'.Idle ∧ Stack.Reach m u (evs ++ more) s' ∧ s'.box = [] ∧ s'.srv.ids.len = s.srv.ids.len ∧ s'.chans.ids.len = s.chans.ids.len ∧ s'.sess = s.sess ∧
    p'.log = p.log ++ l ∧ l.count .accepted = ds.length ∧ l.count (.note .closed) = ds.length ∧ l.count (.note .error) = 0 ∧
    (ds ≠ [] → p'.conn.link = false ∧ p'.conn.timer = false) := by
  induction ds generalizing p s evs with
  | nil => exact ⟨p, s, [], [], ⟨rfl, rfl⟩, hp, by simpa using h, hbox, rfl, rfl, rfl, by simp, by simp, by simp, by simp, by simp⟩
  | cons d ds ih =>
    have hdf := hd d (by simp)
    obtain ⟨k, p1, s1, x, ch, t, tx, ans, more, a1, a2, a3, a4, a5, a6, a7, a8, a9, a10, a11, a12, a13, a14⟩ := C110_opens hp h hbox h1 h2 hdf
    have hpt : p1.conn.timer = true := by
      obtain ⟨es, g1, g2⟩ := a14
      obtain ⟨_, c, _, _, hh⟩ := Cli.from_ok g1 g2
      have hc : c = .connected := by rw [← hh.conn.1]; exact a6.st
      subst hc
      exact hh.conn.2.timer.2 (by rw [a6.st]; simp)
    obtain ⟨c, e1, e2, e3, e4, -⟩ := Cli.expires (e := d.kend) a5 a6.st a6.link hpt hdf.kend.2
    obtain ⟨s2, more2, f1, f2, -, f3, f4, f5, f6, f7, -⟩ := Stack.hangs_up a9 a8 (hdf.env 3).toCalm (hdf.env 4).toCalm
    have hlen : s2.srv.ids.len = s.srv.ids.len := by
      obtain ⟨_, _, _, ht, -⟩ := Stack.reach_parts h
      obtain ⟨_, _, _, ht', -⟩ := Stack.reach_parts f2
      refine Transport.len_links ht ht' fun j _ => ?_
      by_cases hj : j = k
      · rw [hj, f3, a2]
      · rw [f6.1 j hj, a12 j hj]
    obtain ⟨p', s', l, more3, q1, q2, q3, q4, q5, q6, q7, q8, q9, q10, q11, q12⟩ := ih
      (p := { conn := c, st := .init, log := p1.log ++ [.note .closed] }) (s := s2)
      ⟨Cli.reach_run a14 (es := [(d.kend, .timer)]) (by simpa using hdf.kend.1) (by show (p1.next _ _ >>= fun q => q.run []) = _; rw [e1]; rfl), rfl, e2⟩
      f2 f4 (by rw [hlen]; exact h1) (by omega) (fun d hd' => hd d (by simp [hd']))
    refine ⟨p', s', [.opening, .connected, .sent x true, .got (Transport.chunk .opn 0x46 ch ans), .accepted, .note .closed] ++ l, _,
      ⟨k, p1, s1, _, s2, a2, a1, by unfold hang; rw [e1, Exec.ok_bind, f1]; rfl, f3, q1⟩, q2, by rw [← List.append_assoc, ← List.append_assoc]; exact q3, q4,
      q5.trans hlen, by omega, by rw [q7, f5, a10], ?_, by simp [q9], by simp [q10], by simp [q11], fun _ => ?_⟩
    · rw [q8]
      show p1.log ++ _ ++ _ = _
      rw [a4]
      simp only [List.append_assoc, List.cons_append, List.nil_append]
    · cases ds with
      | nil => rw [q1.1]; exact ⟨e3, e4⟩
      | cons _ _ => exact q12 (by simp)

/-- A call over a network that carries one byte at a time. -/
def slowDial : Dial where
  kopen := Cli.env
  kup := Cli.env
  hello := fun d => d.map fun b => (Stack.calm, [b])
  ack := fun d => d.map fun b => (Cli.env, [b])
  request := fun d => d.map fun b => (Stack.calm, [b])
  answer := fun d => d.map fun b => (Cli.env, [b])
  kend := Cli.env
  env := fun _ => Stack.calm

theorem slowDial_fine : slowDial.Fine :=
  have hc : Cli.Good Cli.env := ⟨⟨rfl, rfl, rfl, rfl⟩, by simp [Cli.env]⟩
  have hs : Stack.Fair Stack.calm := ⟨Stack.calm_calm, rfl, rfl, rfl⟩
  ⟨hc, ⟨hc, rfl⟩, single_net hs, single_net ⟨hc, rfl⟩, single_net hs, single_net ⟨hc, rfl⟩, ⟨hc, rfl⟩, fun _ => hs⟩

/-- C110: from the start of both, a client calls a hundred times, byte by byte; the program has 32 connections and 32 channels. -/
example : ∃ s p' s', Stack.create (fun _ => garbage) Channel.unset = .ok s ∧ s.srv.ids.len = 32 ∧ Calls (List.replicate 100 slowDial) (Cli.create garbage) s p' s' ∧
    p'.log.count .accepted = 100 ∧ p'.log.count (.note .error) = 0 ∧ s'.srv.ids.len = 32 ∧ s'.chans.ids.len = 32 := by
  obtain ⟨q, hq, hf⟩ := Pool.free_create
  have hlen : q.len = 32 := hf.holds.hlen.trans (by simp [poolCap])
  have hc : Stack.create (fun _ => garbage) Channel.unset = .ok { srv := ⟨q, fun _ => Tcp.create garbage⟩, chans := ⟨q, fun k => Chan.create (Channel.unset k).1 (Channel.unset k).2⟩, sess := ⟨q, fun _ => Sess.create⟩, box := [] } := by
    unfold Stack.create Srv.create Ent.create
    rw [hq]
    rfl
  obtain ⟨p', s', l, more, h1, -, -, -, h2, h3, -, h4, h5, -, h6, -⟩ := C110_again (p := Cli.create garbage) ⟨⟨[], ⟨garbage, rfl⟩, by simp⟩, rfl, rfl⟩ (.create hc) rfl
    (by show q.len ≠ 0; omega) (by show q.len ≠ 0; omega) (List.replicate 100 slowDial) (fun d hd => by rw [(List.mem_replicate.1 hd).2]; exact slowDial_fine)
  exact ⟨_, p', s', hc, hlen, h1, by rw [h4]; simpa [Cli.create] using h5, by rw [h4]; simpa [Cli.create] using h6, h2.trans hlen, h3.trans hlen⟩

/-- C110: one call; the first piece of each message is shorter than a header. -/
example : ∃ s k p' s' ch t tx ans, Stack.create (fun _ => garbage) Channel.unset = .ok s ∧
    dial { slowDial with hello := fun d => (if d.take 5 = [] then [] else [(Stack.calm, d.take 5)]) ++ if d.drop 5 = [] then [] else [(Stack.calm, d.drop 5)] } k (Cli.create garbage) s =
      .ok (p', s') ∧ p'.st = .established ∧ Channel.AnswersOpen ans ch t tx 0 0 0 ∧ Stack.Ready s' k ch ⟨UInt32.ofNat k, t, 0, false⟩ := by
  obtain ⟨q, hq, hf⟩ := Pool.free_create
  have hlen : q.len = 32 := hf.holds.hlen.trans (by simp [poolCap])
  have hc : Stack.create (fun _ => garbage) Channel.unset = .ok { srv := ⟨q, fun _ => Tcp.create garbage⟩, chans := ⟨q, fun k => Chan.create (Channel.unset k).1 (Channel.unset k).2⟩, sess := ⟨q, fun _ => Sess.create⟩, box := [] } := by
    unfold Stack.create Srv.create Ent.create
    rw [hq]
    rfl
  obtain ⟨k, p', s', -, ch, t, tx, ans, -, h1, -, -, -, h2, -, h3, h4, -⟩ := C110_opens (p := Cli.create garbage) ⟨⟨[], ⟨garbage, rfl⟩, by simp⟩, rfl, rfl⟩ (.create hc) rfl
    (by show q.len ≠ 0; omega) (by show q.len ≠ 0; omega) (d := { slowDial with hello := fun d => (if d.take 5 = [] then [] else [(Stack.calm, d.take 5)]) ++ if d.drop 5 = [] then [] else [(Stack.calm, d.drop 5)] })
    { slowDial_fine with hello := pieces_net ⟨Stack.calm_calm, rfl, rfl, rfl⟩ 5 }
  exact ⟨_, k, p', s', ch, t, tx, ans, hc, h1, h2, h3, h4⟩

end Uscada.Ua
