import Verif.UaDialogue
/-!
# C81: clients come and go

A client connects, says hello, opens a channel, carries out its plan (C79), closes the channel, and is gone.  Behind it everything that it
used is free again, so clients can come and go for ever.
-/

namespace Uscada.Ua

open SM

namespace Transport

variable {m : Nat → Mem} {evs : List (TEnv × TEv)} {s : Srv}

/-! ## Runs of a connection -/

/-- A hello chunk (OPC 10000-6, 7.1.2.3). -/
def helloChunk (body : List UInt8) : List UInt8 := [0x48, 0x45, 0x4C, 0x46] ++ leBytes 4 (body.length + 8) ++ body

theorem helloChunk_length (body : List UInt8) : (helloChunk body).length = body.length + 8 := by
  simp only [helloChunk, List.length_append, MsgStorage.length_leBytes, List.length_cons, List.length_nil]
  omega

/-- An accepted link takes a free connection. -/
theorem accept_exact (h : Srv.Reach m evs s) (hf : s.ids.len ≠ 0) {e : TEnv} (h1 : e.linkFree = true) (h2 : e.accepts = true) (h3 : e.timerFree = true)
    (h4 : e.starts = true) : ∃ k s', Pool.valid k ∧ (s.conns k).link = false ∧ (s.conns k).st = .init ∧ onAccept e s = (.ok (), s') ∧ s'.conns k = { (s.conns k) with
        st := .hello, link := true, opened := true, timer := true, armed := true, rx := (s.conns k).rx.reset, log := (s.conns k).log ++ [.accepted] } ∧
      (∀ j, j ≠ k → s'.conns j = s.conns j) ∧ s'.ids.len + 1 = s.ids.len := by
  obtain ⟨l, hfree, hgood⟩ : s.Inv True False := reach_inv (fun _ _ => ⟨fun _ => trivial, False.elim⟩) h
  have hlen := hfree.holds.hlen
  cases l with
  | nil => exact absurd hlen hf
  | cons k l =>
    have hk := hfree.ids k (by simp)
    have hidle := (hgood k hk).1 (by simp)
    obtain ⟨q, hq, hq'⟩ := hfree.alloc_cons
    let s1 : Srv := { s with ids := q }
    let t1 : Tcp := { (s.conns k) with link := true, opened := true }
    let t2 : Tcp := { t1 with timer := true, armed := false }
    let t3 : Tcp := { t2 with log := (s.conns k).log ++ [.accepted] }
    let t4 : Tcp := { t3 with st := .hello }
    let t5 : Tcp := { t4 with armed := true }
    let t6 : Tcp := { t5 with rx := (s.conns k).rx.reset }
    refine ⟨k, s1.set k t6, hk, hidle.link, hidle.st, ?_, ?_, fun j hj => by simp [Srv.set, hj, s1], ?_⟩
    · simp only [onAccept, takeLink, h1, h2, Bool.and_self, if_true, bind_run, pure_run, andThen, allocId, hq, onAcceptLink, self, hidle.st, acceptLink, conn,
        SM.modify, Srv.set, allocTimer, h3, note, toHello, transit, exit, startTimer, h4, receivePreaction]
      simp only [reduceCtorEq, if_false, if_true, pure_run, andThen, bind_run, SM.modify, self]
      refine congrArg (Prod.mk _) ?_
      simp only [s1, Srv.mk.injEq, true_and]
      funext i
      by_cases hi : i = k <;> simp [hi, t6, t5, t4, t3, t2, t1]
    · simp [Srv.set, t6, t5, t4, t3, t2, t1]
    · show q.len + 1 = s.ids.len
      have := hq'.holds.hlen
      rw [this, hlen]
      rfl

/-- The same as an event. -/
theorem accept_run (h : Srv.Reach m evs s) (hf : s.ids.len ≠ 0) {e : TEnv} (h1 : e.linkFree = true) (h2 : e.accepts = true) (h3 : e.timerFree = true)
    (h4 : e.starts = true) : ∃ k s', Pool.valid k ∧ (s.conns k).link = false ∧ (s.conns k).st = .init ∧ next s e .accept = .ok s' ∧ s'.conns k = { (s.conns k) with
        st := .hello, link := true, opened := true, timer := true, armed := true, rx := (s.conns k).rx.reset, log := (s.conns k).log ++ [.accepted] } ∧
      ∀ j, j ≠ k → s'.conns j = s.conns j := by
  obtain ⟨k, s', a1, a2, a3, a4, a5, a6, -⟩ := accept_exact h hf h1 h2 h3 h4
  refine ⟨k, s', a1, a2, a3, ?_, a5, a6⟩
  show settle (onAccept e s) = _
  rw [a4]
  rfl

/-- The free connections are those without a link. -/
theorem free_iff (h : Srv.Reach m evs s) : ∃ l, Pool.Free s.ids l ∧ ∀ k, Pool.valid k → (k ∈ l ↔ (s.conns k).link = false) := by
  obtain ⟨l, hfree, hgood⟩ : s.Inv True False := reach_inv (fun _ _ => ⟨fun _ => trivial, False.elim⟩) h
  refine ⟨l, hfree, fun k hk => ⟨fun hm => ((hgood k hk).1 hm).link, fun hl => Classical.byContradiction fun hn => ?_⟩⟩
  rcases (hgood k hk).2 hn with h' | ⟨_, h'⟩
  · rw [h'.link] at hl
    cases hl
  · rw [h'.link] at hl
    cases hl

theorem len_links {evs' : List (TEnv × TEv)} {t : Srv} (h : Srv.Reach m evs s) (h' : Srv.Reach m evs' t) (ho : ∀ j, Pool.valid j → (t.conns j).link = (s.conns j).link) :
    t.ids.len = s.ids.len := by
  obtain ⟨l, h1, h2⟩ := free_iff h
  obtain ⟨l', h3, h4⟩ := free_iff h'
  rw [h1.holds.hlen, h3.holds.hlen]
  refine ((List.perm_ext_iff_of_nodup h3.nodup h1.nodup).mpr fun j => ?_).length_eq
  constructor
  · intro hj
    have hv := h3.ids j hj
    exact (h2 j hv).mpr ((ho j hv).symm.trans ((h4 j hv).mp hj))
  · intro hj
    have hv := h1.ids j hj
    exact (h4 j hv).mpr ((ho j hv).trans ((h2 j hv).mp hj))

theorem sizeField_hello {body : List UInt8} (hn : body.length ≤ 4088) : IsChunk (helloChunk body) := by
  refine ⟨by rw [helloChunk_length]; omega, ?_⟩
  rw [helloChunk_length]
  have hb : ∀ n, (leBytes 4 n) = [UInt8.ofNat n, UInt8.ofNat (n / 256), UInt8.ofNat (n / 256 / 256), UInt8.ofNat (n / 256 / 256 / 256)] := fun n => rfl
  unfold helloChunk sizeField
  rw [hb]
  simp only [List.cons_append, List.nil_append, List.getD_cons_succ, List.getD_cons_zero, UInt8.toNat_ofNat']
  omega

/-- A hello chunk in the buffer is decoded. -/
theorem hello_decodes {b : Buf} {v : HelloMessage} {body : List UInt8} (hs : std false v body) (hn : body.length ≤ 4088) (hb : HoldsChunk b (helloChunk body)) :
    ∃ b', handshakeDec .server b = .ok ((), b') := by
  obtain ⟨x, hx⟩ := Takes.header (Ua.init : MessageHeader) b (by rw [hb.1]; omega)
  have hd : dec (Ua.init : HelloMessage) { b with tail := b.tail + 8 } = .ok (v, Buf.skip { b with tail := b.tail + 8 } body.length) := by
    refine Accepts.acc v body hs _ (by show b.tail + 8 + _ ≤ 4096; rw [hb.1]; omega) ?_
    show memRead b.packet (b.tail + 8) body.length = body
    have hp := hb.2
    rw [hb.head, helloChunk_length, Nat.add_comm, memRead_split] at hp
    rw [hb.1]
    exact (List.append_inj hp (by rw [MsgStorage.length_memRead]; rfl)).2
  refine ⟨Buf.skip { b with tail := b.tail + 8 } body.length, ?_⟩
  show (dec (Ua.init : MessageHeader) >>= fun _ => dec (Ua.init : HelloMessage) >>= fun _ => pure () : Codec Unit) b = _
  rw [Codec.bind_run, hx, Exec.ok_bind]
  show (dec (Ua.init : HelloMessage) >>= fun _ => pure () : Codec Unit) _ = _
  rw [Codec.bind_run, hd, Exec.ok_bind]
  rfl

/-- A hello chunk is acknowledged. -/
theorem hello_run (h : Srv.Reach m evs s) {k : Nat} (hk : Pool.valid k) (hst : (s.conns k).st = .hello) (ho : (s.conns k).opened = true) {e : TEnv}
    (h1 : e.starts = true) (h2 : e.writes = true) {b : Buf} (hr : receive (s.conns k).opened e.rx (s.conns k).rx = .ok (.done, b))
    {v : HelloMessage} {body : List UInt8} (hs : std false v body) (hn : body.length ≤ 4088) (hb : HoldsChunk b (helloChunk body)) :
    ∃ s' rx, next s e (.linkData k) = .ok s' ∧ s'.conns k = { (s.conns k) with
        st := .connected, armed := true, rx := rx, log := (s.conns k).log ++ [.sent ackFrame] } ∧ rx.tail = 0 ∧ rx.head = 0 ∧ ∀ j, j ≠ k → s'.conns j = s.conns j := by
  have hl := (reach_live h hk (by rw [hst]; simp)).choose_spec.2.2.2.2
  obtain ⟨b', hd⟩ := hello_decodes hs hn hb
  rw [ho] at hr
  refine ⟨s.set k { (s.conns k) with st := .connected, armed := true, rx := b'.reset, log := (s.conns k).log ++ [.sent ackFrame] }, b'.reset, ?_, by simp [Srv.set], rfl, rfl,
    fun j hj => by simp [Srv.set, hj]⟩
  have : onData k e s = (.ok (), s.set k { (s.conns k) with st := .connected, armed := true, rx := b'.reset, log := (s.conns k).log ++ [.sent ackFrame] }) := by
    simp only [onData, bind_run, self, andThen, hst, receiveHello, receiveRx, hl.link, if_true, hr, lift, conn, SM.modify, pure_run, Srv.set, decodeHello, hd, sendAcknowledge,
      C45_acknowledge, linkSend, ho, h2, Bool.and_self, note, toConnected, transit, exit, stopTimer, hl.timer]
    simp only [reduceCtorEq, if_false, if_true, andThen, bind_run, SM.modify, self, startTimer, h1, conn, receivePreaction, Srv.set]
    refine congrArg (Prod.mk _) ?_
    simp only [Srv.mk.injEq, true_and]
    funext i
    by_cases hi : i = k <;> simp [hi, ackFrame]
  show settle (onData k e s) = _
  rw [this]
  rfl

/-- The answer to a close request is written. -/
theorem closeRsp_run (h : Srv.Reach m evs s) {k : Nat} (hk : Pool.valid k) (hst : (s.conns k).st = .connected) (ho : (s.conns k).opened = true) {e : TEnv}
    (he : e.writes = true) (flag : UInt8) {channel : UInt32} (ha : (s.conns k).assoc = some channel) {d : List UInt8} (hd : d.length ≤ 4084) :
    ∃ s', next s e (.down k (.closeRsp channel flag d)) = .ok s' ∧ s'.conns k = { (s.conns k) with
        log := (s.conns k).log ++ [.sent (chunk .clo flag channel d)] } ∧ ∀ j, j ≠ k → s'.conns j = s.conns j := by
  have hl := (reach_live h hk (by rw [hst]; simp)).choose_spec.2.2.2.2
  refine ⟨s.set k { (s.conns k) with log := (s.conns k).log ++ [.sent (chunk .clo flag channel d)] }, ?_, by simp [Srv.set],
    fun j hj => by simp [Srv.set, hj]⟩
  have : event e (.down k (.closeRsp channel flag d)) s =
      (.ok (), s.set k { (s.conns k) with log := (s.conns k).log ++ [.sent (chunk .clo flag channel d)] }) := by
    show (if Pool.valid k then onReceive k e _ else undefined) s = _
    rw [if_pos hk]
    simp only [onReceive, bind_run, self, andThen, hst, receiveCloseRsp, if_pos ha, sendSecured, lift,
      C45_secured garbage _ _ _ flag channel d hd, linkSend, hl.link, ho, he, Bool.and_self, if_true, note, conn, SM.modify, answered]
    rfl
  show settle (event e _ s) = _
  rw [this]
  rfl

end Transport

namespace Stack

open Transport (chunk helloChunk HoldsChunk SecType)
open Channel (Window AnswersOpen AnswersClose SaysOpen)
open Session (isOpen Fits Says)

variable {m : Nat → Mem} {u : Nat → UInt32 × UInt32} {evs : List (Env × Ev)} {s s' : Stack}

/-! ## Specification -/

/-- How a client ends its connection: with a close request, or by closing its end. -/
inductive Bye where
  | close (q : Cont UaCloseSecureChannelReq 452) (id : UInt32) (body : List UInt8)
  | hangUp

/-- What a client does from its connection to the end of it: hello, open, its plan, and the end. -/
structure Visit where
  hello : HelloMessage
  helloBody : List UInt8
  c0 : UInt32
  sec : UaSecurityHeader
  seq : UaSequenceHeader
  req : Cont UaOpenSecureChannelReq 446
  openBody : List UInt8
  plan : Plan
  bye : Bye

/-- A plan as in C79 that closes every session it created. -/
def Tidy (K : Know) : Plan → Prop
  | .done => K.opened = []
  | .ask _ r body next => Says r body ∧ body.length ≤ 4032 ∧
    if isCreate r then K.May 0 r ∧ ∀ x ans, Pool.valid x.toNat → x ∉ K.opened → Fits x.toNat r ans → ans.length ≤ 264 →
        Tidy (K.after x r) (next ans)
    else ∃ x, K.May x r ∧ ∀ ans, Fits x.toNat r ans → ans.length ≤ 264 → Tidy (K.after x r) (next ans)

/-- The client keeps to the rules and needs at most `n` sessions at a time: every message has an encoding that the program reads (C74) and fits. -/
structure Visit.Fine (v : Visit) (n : Nat) : Prop where
  hello : std false v.hello v.helloBody
  helloLen : v.helloBody.length ≤ 4088
  «open» : SaysOpen v.sec v.seq v.req v.openBody
  openLen : v.openBody.length ≤ 4052
  plan : Tidy ⟨[], [], none, n⟩ v.plan
  bye : ∀ q id body, v.bye = .close q id body → std false q body ∧ body.length ≤ 4032

/-- Nothing goes wrong outside, and the pools of links and timers are not exhausted. -/
structure Fair (e : Env) : Prop extends Calm e where
  linkFree : e.tcp.linkFree = true
  accepts : e.tcp.accepts = true
  timerFree : e.tcp.timerFree = true

/-- The window behind `n` requests. -/
def advance (w : Window) (n : Nat) : Window := { w with seq := w.seq + UInt32.ofNat n }

/-- The reading fails, or finds the end of the stream. -/
def Env.fails (e : Env) : Env := { e with tcp := { e.tcp with rx := .error } }

/-- The client ends its connection, from index `i` of the environments on: a close request is answered, the end of the stream is not. -/
def Parts (env : Nat → Env) (i k : Nat) (ch : UInt32) (w : Window) (tx : UInt32) (s s' : Stack) : Bye → Prop
  | .close q id body => run s (((env i).brings (chunk .clo 0x46 ch (request w id body)), .net (.linkData k)) :: [1, 2, 3].map fun j => (env (i + j), .deliver)) = .ok s' ∧
    ∃ ans, written s s' k = [chunk .clo 0x46 ch ans] ∧ AnswersClose ans w.token (tx + 1) id q.msg.requestHdr.requestHandle
  | .hangUp => run s [((env i).fails, .net (.linkData k)), (env (i + 1), .deliver)] = .ok s' ∧ written s s' k = []

/-- The whole visit takes place on a connection that was free and is free again: the hello is acknowledged; the open request is answered with a channel and a token;
the plan is carried out to its end, with answers `xs`; the client ends its connection. -/
def Attended (env : Nat → Env) (v : Visit) (s : Stack) (xs : List (SReq × List UInt8)) (s' : Stack) : Prop :=
  ∃ k ch token tx s1 s2 s3 s4, (s.srv.conns k).link = false ∧ run s [(env 0, .net .accept)] = .ok s1 ∧ (s1.srv.conns k).link = true ∧
    run s1 [((env 1).brings (helloChunk v.helloBody), .net (.linkData k))] = .ok s2 ∧ written s1 s2 k = [ackFrame] ∧
    run s2 [((env 2).brings (chunk .opn 0x46 v.c0 v.openBody), .net (.linkData k)), (env 3, .deliver), (env 4, .deliver)] = .ok s3 ∧
    (∃ ans, written s2 s3 k = [chunk .opn 0x46 ch ans] ∧ AnswersOpen ans ch token tx v.seq.requestId v.req.msg.requestHdr.requestHandle v.req.msg.requestLifetime) ∧
    play env k ch v.plan 5 ⟨UInt32.ofNat k, token, v.seq.sequenceNumber, false⟩ tx s3 = .ok (some (xs, s4)) ∧ Completes v.plan xs ∧
    Parts env (5 + 6 * xs.length) k ch (advance ⟨UInt32.ofNat k, token, v.seq.sequenceNumber, false⟩ xs.length) (tx + UInt32.ofNat xs.length) s4 s' v.bye ∧
    (s'.srv.conns k).link = false

/-! ## The dialogue -/

theorem dialogue_tidy (h : Reach m u evs s) {k : Nat} {ch : UInt32} {w : Window} (hr : Ready s k ch w) (hbl : Blank s k) {tx : UInt32}
    (htx : Channel.lastTx (s.chans.objs ch.toNat).log = some tx) {K : Know} (hK : Holds K s ch) {p : Plan} (hp : Tidy K p) {env : Nat → Env} (he : ∀ i, Calm (env i))
    (i : Nat) : ∃ xs s' more, play env k ch p i w tx s = .ok (some (xs, s')) ∧ Completes p xs ∧
      Reach m u (evs ++ more) s' ∧ Ready s' k ch (advance w xs.length) ∧ Blank s' k ∧ Beside k ch s s' ∧
      (∀ j, Pool.valid j → isOpen (s.sess.objs j).log = true → (∀ y ∈ K.opened, y.toNat ≠ j) → s'.sess.objs j = s.sess.objs j) ∧
      (∀ j, Pool.valid j → isOpen (s'.sess.objs j).log = true → isOpen (s.sess.objs j).log = true ∧ ∀ y ∈ K.opened, y.toNat ≠ j) ∧
      s'.chans.ids = s.chans.ids ∧ Channel.lastTx (s'.chans.objs ch.toNat).log = some (tx + UInt32.ofNat xs.length) := by
  induction p generalizing evs s w tx K i with
  | done =>
    refine ⟨[], s, [], rfl, rfl, by simpa using h, by simpa [advance] using hr, hbl, ⟨fun _ _ => rfl, fun _ _ => rfl⟩, fun _ _ _ _ => rfl, fun j _ ho => ⟨ho, ?_⟩, rfl,
      by simpa using htx⟩
    rw [show K.opened = [] from hp]
    exact fun _ h => (by cases h)
  | ask id r body next ih =>
    obtain ⟨hq, hlen, hp⟩ := hp
    obtain ⟨x, hm, hnext⟩ : ∃ x, K.May x r ∧ ∀ x' ans, (if isCreate r then Pool.valid x'.toNat ∧ x' ∉ K.opened else x' = x) → Fits x'.toNat r ans →
        ans.length ≤ 264 → Tidy (K.after x' r) (next ans) := by
      by_cases hc : isCreate r = true
      · rw [if_pos hc] at hp
        refine ⟨0, hp.1, fun x' ans hx hf hl => ?_⟩
        rw [if_pos hc] at hx
        exact hp.2 x' ans hx.1 hx.2 hf hl
      · rw [if_neg hc] at hp
        obtain ⟨x, h1, h2⟩ := hp
        refine ⟨x, h1, fun x' ans hx hf hl => ?_⟩
        rw [if_neg hc] at hx
        subst hx
        exact h2 ans hf hl
    obtain ⟨s1, ans, x', more, g1, g2, g3, g4, g5, g6, g7⟩ := exchange h hr hbl hK he i 0x46 id hq hlen hm
    obtain ⟨n, t1, t2, t3⟩ := served_written g2
    have hn : tx = n := Option.some.inj (htx.symm.trans t1)
    subst hn
    obtain ⟨xs, s', more', p1, p2, p3, p4, p5, p6, p7, p8, p9, p10⟩ := ih ans g2.reach g2.ready g2.blank t2 g4 (hnext x' ans g6 g3 g2.small) (i + 6)
    have hadd : ∀ y : UInt32, y + 1 + UInt32.ofNat xs.length = y + UInt32.ofNat ((r, ans) :: xs).length := fun y => by
      rw [List.length_cons, Nat.add_comm, UInt32.ofNat_add, UInt32.add_assoc]
      rfl
    refine ⟨(r, ans) :: xs, s', more ++ more', ?_, ⟨ans, xs, rfl, ⟨_, g3⟩, p2⟩, by rw [← List.append_assoc]; exact p3, ?_, p5, g2.beside.trans p6,
      fun j hj ho hnm => ?_, fun j hj ho => ?_, p9.trans g2.ids, ?_⟩
    · simp only [play]
      rw [g1, Exec.ok_bind, t3]
      simp only [understood_answer, p1, Exec.ok_bind]
      rfl
    · rw [show advance w ((r, ans) :: xs).length = advance (Window.next w) xs.length from by
        show { w with seq := _ } = ({ w with seq := _ } : Window)
        rw [← hadd]
        rfl]
      exact p4
    · obtain ⟨q1, q2⟩ := g5 j hj ho hnm
      rw [← q1]
      exact p7 j hj (by rw [q1]; exact ho) q2
    · obtain ⟨q1, q2⟩ := p8 j hj ho
      rcases g7 j hj q1 with ⟨y, hy, hyj⟩ | hq'
      · exact absurd hyj (q2 y hy)
      · exact hq'
    · rw [p10, hadd]

/-! ## The beginning and the end -/

theorem written_eq {k : Nat} {new : List TAct} (h : (s'.srv.conns k).log = (s.srv.conns k).log ++ new) : written s s' k = new.filterMap fun
    | .sent f => some f
    | _ => none := by
  unfold written
  rw [h, List.drop_left]
  rfl

/-- A link is accepted, and its hello is acknowledged. -/
theorem arrives (h : Reach m u evs s) (hf : s.srv.ids.len ≠ 0) (hbox : s.box = []) {e1 e2 : Env} (h1 : Fair e1) (h2 : Fair e2) {v : HelloMessage} {body : List UInt8}
    (hs : std false v body) (hn : body.length ≤ 4088) : ∃ k s1 s2 more, Pool.valid k ∧ (s.srv.conns k).link = false ∧ run s [(e1, .net .accept)] = .ok s1 ∧
      (s1.srv.conns k).link = true ∧ run s1 [(e2.brings (helloChunk body), .net (.linkData k))] = .ok s2 ∧ written s1 s2 k = [ackFrame] ∧
      Reach m u (evs ++ more) s2 ∧ (s2.srv.conns k).st = .connected ∧ (s2.srv.conns k).opened = true ∧ Blank s2 k ∧ s2.box = [] ∧ s2.chans = s.chans ∧ s2.sess = s.sess ∧
      ∀ j, j ≠ k → s2.srv.conns j = s.srv.conns j := by
  obtain ⟨tevs, _, _, ht, -⟩ := reach_parts h
  obtain ⟨k, t, hk, hl0, -, hn1, htk, hto⟩ := Transport.accept_run ht hf h1.linkFree h1.accepts h1.timerFree h1.starts
  have hsent : sentTcp s.srv t = [] := by
    rw [sentTcp_eq hk (by rw [htk]) hto]
    rfl
  have hs1 := step_net (s := s) (e := e1) hn1 (by rw [hsent]; intro y hy; cases hy) (by
    rw [hbox, hsent]; have := h1.others; simp only [List.length_nil]; omega)
  rw [hsent, hbox, List.append_nil] at hs1
  have hr1 : Reach m u (evs ++ [(e1, .net .accept)]) { s with srv := t, box := [] } := h.step ⟨rfl, trivial⟩ hs1
  obtain ⟨tevs2, _, _, ht2, -⟩ := reach_parts hr1
  have hlen := Transport.helloChunk_length body
  have hrx0 : (t.conns k).rx.tail = 0 ∧ (t.conns k).rx.head = 0 := by rw [htk]; exact ⟨rfl, rfl⟩
  have hmem := memRead_append (t.conns k).rx [] (helloChunk body) (by rw [hrx0.2]; rfl)
  have hrecv : receive (t.conns k).opened (e2.brings (helloChunk body)).tcp.rx (t.conns k).rx = .ok (.done, (t.conns k).rx.append (helloChunk body)) := by
    rw [show (t.conns k).opened = true by rw [htk]]
    exact receive_ok (by omega) (by omega) (evaluate_prefix ((t.conns k).rx.append (helloChunk body)) (helloChunk body) [] hrx0.1
      hmem (by rw [List.append_nil]; exact Transport.sizeField_hello hn))
  obtain ⟨t2, rx, hn2, ht2k, hrx1, hrx2, ht2o⟩ := Transport.hello_run ht2 hk (by show (t.conns k).st = _; rw [htk]) (by show (t.conns k).opened = _; rw [htk])
    (e := (e2.brings (helloChunk body)).tcp) h2.starts h2.writes hrecv hs hn ⟨hrx0.1, hmem⟩
  have hsent2 : sentTcp t t2 = [] := by
    rw [sentTcp_eq hk (by rw [ht2k]) ht2o]
    rfl
  have hs2 := step_net (s := { s with srv := t, box := [] }) (e := e2.brings (helloChunk body)) hn2
    (by show ∀ y ∈ sentTcp t t2, _; rw [hsent2]; intro y hy; cases hy)
    (by show 0 + (sentTcp t t2).length + e2.others ≤ _; rw [hsent2]; have := h2.others; simp only [List.length_nil]; omega)
  have hr2 := hr1.step (e := e2.brings (helloChunk body)) (v := .net (.linkData k)) ⟨rfl, hk, by show (t.conns k).link = _; rw [htk]⟩ hs2
  refine ⟨k, { s with srv := t, box := [] }, { s with srv := t2, box := [] ++ sentTcp t t2 },
    [(e1, .net .accept), (e2.brings (helloChunk body), .net (.linkData k))], hk, hl0, by rw [run_cons hs1]; rfl, by show (t.conns k).link = _; rw [htk],
    by rw [run_cons hs2]; rfl, ?_, by simpa only [List.append_assoc, List.cons_append, List.nil_append] using hr2, ?_, ?_, ?_, ?_, rfl, rfl, ?_⟩
  · rw [written_eq (new := [.sent ackFrame]) (by show (t2.conns k).log = _; rw [ht2k])]
    rfl
  · show (t2.conns k).st = _
    rw [ht2k]
  · show (t2.conns k).opened = _
    rw [ht2k, htk]
  · show (t2.conns k).rx.tail = 0 ∧ (t2.conns k).rx.head = 0
    rw [ht2k]
    exact ⟨hrx1, hrx2⟩
  · show [] ++ sentTcp t t2 = _
    rw [hsent2]
    rfl
  · intro j hj
    show t2.conns j = _
    rw [ht2o j hj, hto j hj]

/-- A close request is answered, and the connection and the channel end. -/
theorem leaves (h : Reach m u evs s) {k : Nat} {ch : UInt32} {w : Window} (hr : Ready s k ch w) (hbl : Blank s k) {tx : UInt32}
    (htx : Channel.lastTx (s.chans.objs ch.toNat).log = some tx) {e1 e2 e3 e4 : Env} (h1 : Calm e1) (h2 : Calm e2) (h3 : Calm e3) (h4 : Calm e4)
    {q : Cont UaCloseSecureChannelReq 452} {id : UInt32} {body : List UInt8} (hq : std false q body) (hlen : body.length ≤ 4032) : ∃ s' ans more,
      run s [(e1.brings (chunk .clo 0x46 ch (request w id body)), .net (.linkData k)), (e2, .deliver), (e3, .deliver), (e4, .deliver)] = .ok s' ∧
      Reach m u (evs ++ more) s' ∧ written s s' k = [chunk .clo 0x46 ch ans] ∧ AnswersClose ans w.token (tx + 1) id q.msg.requestHdr.requestHandle ∧
      (s'.srv.conns k).link = false ∧ s'.box = [] ∧ s'.sess = s.sess ∧ Beside k ch s s' ∧ s'.chans.ids.len = s.chans.ids.len + 1 ∧
      Channel.owner (s'.chans.objs ch.toNat).log = none := by
  obtain ⟨b, hrx, hold⟩ : Brings s (e1.brings (chunk .clo 0x46 ch (request w id body))) k (chunk .clo 0x46 ch (request w id body)) :=
    brings_whole hr.opened hbl.1 hbl.2 (by rw [request_length]; omega) rfl
  obtain ⟨tevs, cevs, sevs, ht, hc, hs, hlong⟩ := reach_parts h
  obtain ⟨t, hn, htk, hto⟩ := Transport.chunk_run m tevs s.srv ht k hr.conn hr.st (e1.brings (chunk .clo 0x46 ch (request w id body))).tcp h1.starts b .clo 0x46 ch
    (request w id body) (by rw [request_length]; omega) hrx hold (.inr ⟨by simp, hr.assoc⟩)
  let x := memRead b.packet b.head 12
  have hx : x.length = 12 := MsgStorage.length_memRead _ _ _
  have hsent : sentTcp s.srv t = [.chan (.close (UInt32.ofNat k) ch (request w id body ++ x))] := by
    rw [sentTcp_eq hr.conn (by rw [htk]) hto]
    rfl
  have hdl : (request w id body ++ x).length ≤ 4056 := by
    rw [List.length_append, request_length]
    omega
  have hs1 := step_net (s := s) (e := e1.brings (chunk .clo 0x46 ch (request w id body))) hn
    (by rw [hsent]; intro y hy; rw [List.mem_singleton.mp hy]; simp only [Mail.size]; omega)
    (by rw [hr.box, hsent]; show 0 + 1 + e1.others ≤ _; have := h1.others; omega)
  rw [hsent, hr.box, List.nil_append] at hs1
  have hreach1 := h.step (e := e1.brings (chunk .clo 0x46 ch (request w id body))) (v := .net (.linkData k))
    ⟨rfl, hr.conn, (Transport.reach_live ht hr.conn (by rw [hr.st]; simp)).choose_spec.2.2.2.2.link⟩ hs1
  have hown : UInt32.ofNat k = w.owner := hr.owner.symm
  obtain ⟨c, ans, tx', hcn, hcg, hans, hcl, n, hn1, hn2⟩ := Channel.close_run hc hr.chan hr.knows e2.chan id q hq (request w id body ++ x) x
    (by rw [request_append]; rfl) (by omega)
  have htxe : tx' = tx + 1 := by
    rw [hn2]
    exact congrArg (· + 1) (Option.some.inj (hn1.symm.trans htx))
  subst htxe
  have hcs : sentChan s.chans c = [.tcp k (.closeRsp ch 0x46 ans), .tcp k .releaseReq] := by
    rw [sentChan_eq hr.chan hcg]
    show [Mail.tcp w.owner.toNat _, Mail.tcp w.owner.toNat _] = _
    rw [hr.owner, (toNat_eq (lt33 hr.conn)).mpr rfl]
  have hal : ans.length ≤ 276 := small_chan (n := 4064) (e := e2.chan) (x := .close w.owner ch (request w id body ++ x)) hcn
    (by show (request w id body ++ x).length ≤ 4064; omega) (.tcp k (.closeRsp ch 0x46 ans)) (by rw [hcs]; exact List.mem_cons_self)
  have hs2 := step_chan (s := { s with srv := t, box := [.chan (.close (UInt32.ofNat k) ch (request w id body ++ x))] }) (e := e2) (rest := [])
    (x := .close (UInt32.ofNat k) ch (request w id body ++ x)) (c := c) rfl (by rw [hown]; exact hcn)
    (by
      show ∀ z ∈ sentChan s.chans c, _
      rw [hcs]
      intro z hz
      rcases List.mem_cons.mp hz with rfl | hz
      · simp only [Mail.size]; omega
      · rw [List.mem_singleton.mp hz]; simp only [Mail.size]; omega)
    (by show 0 + (sentChan s.chans c).length + _ ≤ _; rw [hcs]; have := h2.others; simp only [List.length_cons, List.length_nil]; omega)
  have hreach2 := hreach1.step (by simp [Possible]) hs2
  obtain ⟨tevs2, _, _, ht2, -⟩ := reach_parts hreach2
  obtain ⟨t3, hn3, ht3k, ht3o⟩ := Transport.closeRsp_run ht2 hr.conn (by show (t.conns k).st = _; rw [htk]; exact hr.st) (by show (t.conns k).opened = _; rw [htk]; exact hr.opened)
    (e := e3.tcp) h3.writes 0x46 (channel := ch) (by show (t.conns k).assoc = _; rw [htk]; exact hr.assoc) (d := ans) (by omega)
  have ht3s : sentTcp t t3 = [] := by
    rw [sentTcp_eq hr.conn (by rw [ht3k]) ht3o]
    rfl
  have hs3 := step_tcp (s := { s with srv := t, chans := c, box := [] ++ sentChan s.chans c }) (e := e3) (rest := [.tcp k .releaseReq]) (t := t3)
    (by show [] ++ sentChan s.chans c = _; rw [hcs]; rfl) hn3
    (by show ∀ z ∈ sentTcp t t3, _; rw [ht3s]; intro z hz; cases hz)
    (by show 1 + (sentTcp t t3).length + _ ≤ _; rw [ht3s]; have := h3.others; simp only [List.length_nil]; omega)
  have hreach3 := hreach2.step (e := e3) (v := .deliver) (by show [] ++ sentChan s.chans c ≠ []; rw [hcs]; simp) hs3
  obtain ⟨tevs3, _, _, ht3, -⟩ := reach_parts hreach3
  obtain ⟨t4, hn4, -, ht4l, -, ht4log, ht4o⟩ := Transport.C36_request_ends m tevs3 t3 ht3 k hr.conn (by rw [ht3k]; show (t.conns k).st = _; rw [htk]; exact hr.st) e4.tcp
  have ht4s : sentTcp t3 t4 = [] := by
    rw [sentTcp_eq hr.conn ht4log ht4o]
    rfl
  have hs4 := step_tcp (s := { s with srv := t3, chans := c, box := [.tcp k .releaseReq] ++ sentTcp t t3 }) (e := e4) (rest := []) (t := t4)
    (by show _ ++ sentTcp t t3 = _; rw [ht3s]; rfl) hn4
    (by show ∀ z ∈ sentTcp t3 t4, _; rw [ht4s]; intro z hz; cases hz)
    (by show 0 + (sentTcp t3 t4).length + _ ≤ _; rw [ht4s]; have := h4.others; simp only [List.length_nil]; omega)
  have hreach4 := hreach3.step (e := e4) (v := .deliver) (by show _ ++ sentTcp t t3 ≠ []; simp) hs4
  refine ⟨{ s with srv := t4, chans := c, box := [] ++ sentTcp t3 t4 }, ans, [(e1.brings (chunk .clo 0x46 ch (request w id body)), .net (.linkData k)), (e2, .deliver), (e3, .deliver), (e4, .deliver)], ?_,
    by simpa only [List.append_assoc, List.cons_append, List.nil_append] using hreach4, ?_, hans, ht4l, ?_, rfl, ⟨fun j hj => ?_, hcg.2⟩, hcl, ?_⟩
  · rw [run_cons hs1, run_cons hs2, run_cons hs3, run_cons hs4]
    rfl
  · rw [written_eq (new := [.up (.close ch 0x46 (request w id body ++ x)), .sent (chunk .clo 0x46 ch ans), .asked, .released]) (by
      show (t4.conns k).log = _
      rw [ht4log, ht3k]
      show (t.conns k).log ++ _ ++ _ = _
      rw [htk]
      simp only [List.append_assoc, List.cons_append, List.nil_append]
      rfl)]
    rfl
  · show [] ++ sentTcp t3 t4 = _
    rw [ht4s]
    rfl
  · show t4.conns j = _
    rw [ht4o j hj, ht3o j hj]
    exact hto j hj
  · show Channel.owner (c.objs ch.toNat).log = _
    rw [hcg.1]
    rw [show ∀ (l : List CAct) (a b c d : CAct), l ++ [a, b, c, d] = l ++ [a, b, c] ++ [d] by simp, Channel.owner_snoc]

/-- The client closes its end, and the connection and the channel end. -/
theorem hangs_up (h : Reach m u evs s) {k : Nat} {ch : UInt32} {w : Window} (hr : Ready s k ch w) {e1 e2 : Env} (h1 : Calm e1) (h2 : Calm e2) : ∃ s' more,
      run s [(e1.fails, .net (.linkData k)), (e2, .deliver)] = .ok s' ∧
      Reach m u (evs ++ more) s' ∧ written s s' k = [] ∧
      (s'.srv.conns k).link = false ∧ s'.box = [] ∧ s'.sess = s.sess ∧ Beside k ch s s' ∧ s'.chans.ids.len = s.chans.ids.len + 1 ∧
      Channel.owner (s'.chans.objs ch.toNat).log = none := by
  obtain ⟨tevs, cevs, sevs, ht, hc, hs, hlong⟩ := reach_parts h
  have hrx : receive (s.srv.conns k).opened e1.fails.tcp.rx (s.srv.conns k).rx = .ok (.error, (s.srv.conns k).rx) := by
    show receive _ .error _ = _
    unfold receive
    split
    · rfl
    · split <;> rfl
  obtain ⟨t, hn, -, htl, -, htlog, hto⟩ := Transport.C36_read_error_ends m tevs s.srv ht k hr.conn hr.st e1.fails.tcp _ hrx
  rw [hr.assoc, List.append_assoc] at htlog
  have hsent : sentTcp s.srv t = [.chan (.released (UInt32.ofNat k) ch)] := by
    rw [sentTcp_eq hr.conn htlog hto]
    rfl
  have hs1 := step_net (s := s) (e := e1.fails) hn
    (by rw [hsent]; intro y hy; rw [List.mem_singleton.mp hy]; simp only [Mail.size]; omega)
    (by rw [hr.box, hsent]; show 0 + 1 + e1.others ≤ _; have := h1.others; omega)
  rw [hsent, hr.box, List.nil_append] at hs1
  have hreach1 := h.step (e := e1.fails) (v := .net (.linkData k))
    ⟨rfl, hr.conn, (Transport.reach_live ht hr.conn (by rw [hr.st]; simp)).choose_spec.2.2.2.2.link⟩ hs1
  obtain ⟨c, hcn, hcg, hcl⟩ := Channel.release_run hc hr.chan (c' := UInt32.ofNat k) hr.knows.owner e2.chan
  have hcs : sentChan s.chans c = [] := by
    rw [sentChan_eq hr.chan hcg]
    rfl
  have hs2 := step_chan (s := { s with srv := t, box := [.chan (.released (UInt32.ofNat k) ch)] }) (e := e2) (rest := [])
    (x := .released (UInt32.ofNat k) ch) (c := c) rfl hcn
    (by show ∀ z ∈ sentChan s.chans c, _; rw [hcs]; intro z hz; cases hz)
    (by show 0 + (sentChan s.chans c).length + _ ≤ _; rw [hcs]; have := h2.others; simp only [List.length_nil]; omega)
  have hreach2 := hreach1.step (by simp [Possible]) hs2
  refine ⟨{ s with srv := t, chans := c, box := [] ++ sentChan s.chans c }, [(e1.fails, .net (.linkData k)), (e2, .deliver)], ?_,
    by simpa only [List.append_assoc, List.cons_append, List.nil_append] using hreach2, ?_, htl, ?_, rfl, ⟨hto, hcg.2⟩, hcl, ?_⟩
  · rw [run_cons hs1, run_cons hs2]
    rfl
  · rw [written_eq htlog]
    rfl
  · show [] ++ sentChan s.chans c = _
    rw [hcs]
    rfl
  · show Channel.owner (c.objs ch.toNat).log = _
    rw [hcg.1]
    rw [show ∀ (l : List CAct) (a b : CAct), l ++ [a, b] = l ++ [a] ++ [b] by simp, Channel.owner_snoc]

theorem parts_ok (h : Reach m u evs s) {k : Nat} {ch : UInt32} {w : Window} (hr : Ready s k ch w) (hbl : Blank s k) {tx : UInt32}
    (htx : Channel.lastTx (s.chans.objs ch.toNat).log = some tx) {env : Nat → Env} (he : ∀ i, Calm (env i)) (i : Nat) {b : Bye}
    (hb : ∀ q id body, b = .close q id body → std false q body ∧ body.length ≤ 4032) : ∃ s' more, Parts env i k ch w tx s s' b ∧ Reach m u (evs ++ more) s' ∧
      (s'.srv.conns k).link = false ∧ s'.box = [] ∧ s'.sess = s.sess ∧ Beside k ch s s' ∧ s'.chans.ids.len = s.chans.ids.len + 1 := by
  cases b with
  | close q id body =>
    obtain ⟨g1, g2⟩ := hb q id body rfl
    obtain ⟨s', ans, more, d1, d2, d3, d4, d5, d6, d7, d8, d9, -⟩ := leaves h hr hbl htx (he i) (he (i + 1)) (he (i + 2)) (he (i + 3)) (id := id) g1 g2
    exact ⟨s', more, ⟨d1, ans, d3, d4⟩, d2, d5, d6, d7, d8, d9⟩
  | hangUp =>
    obtain ⟨s', more, d1, d2, d3, d5, d6, d7, d8, d9, -⟩ := hangs_up h hr (he i) (he (i + 1))
    exact ⟨s', more, ⟨d1, d3⟩, d2, d5, d6, d7, d8, d9⟩

/-! ## C81 -/

/-- C81: from every reachable state with an empty mailbox, a free connection, a free channel and `n` free sessions, every visit that keeps to the rules and needs at most `n` sessions takes place to
its end.  Behind it the mailbox is empty, there are as many free connections, channels and sessions as before, and other connections, channels, and sessions that are open
are as before.  (Nothing else happens meanwhile.) -/
theorem C81_visit (h : Reach m u evs s) (hbox : s.box = []) (h1 : s.srv.ids.len ≠ 0) (h2 : s.chans.ids.len ≠ 0) {n : Nat} (h3 : n ≤ s.sess.ids.len)
    {v : Visit} (hv : v.Fine n) {env : Nat → Env} (he : ∀ i, Fair (env i)) : ∃ xs s' more, Attended env v s xs s' ∧ Reach m u (evs ++ more) s' ∧ s'.box = [] ∧
      s'.srv.ids.len = s.srv.ids.len ∧ s'.chans.ids.len = s.chans.ids.len ∧ s'.sess.ids.len = s.sess.ids.len ∧
      (∀ j, (s.srv.conns j).link = true → s'.srv.conns j = s.srv.conns j) ∧
      (∀ j, Channel.owner (s.chans.objs j).log ≠ none → s'.chans.objs j = s.chans.objs j) ∧
      ∀ j, Pool.valid j → isOpen (s.sess.objs j).log = true → s'.sess.objs j = s.sess.objs j := by
  obtain ⟨k, s1, s2, m1, hk, hl0, a1, a2, a3, a4, a5, a6, a7, a8, a9, a10, a11, a12⟩ := arrives h h1 hbox (he 0) (he 1) hv.hello hv.helloLen
  obtain ⟨s3, ch, ans, tx, x, b1, b2, b3, b4, b5, b6, b7, b8, b9, b10, b11⟩ := C66_open a5 (by rw [a10]; exact h2) hk a6 a7 a9
    (calm_brings (he 2).toCalm (chunk .opn 0x46 v.c0 v.openBody)) (he 3).toCalm (he 4).toCalm (flag := 0x46) (c0 := v.c0) v.sec v.seq v.req hv.open hv.openLen
    (brings_whole a7 a8.1 a8.2 (by have := hv.openLen; omega) rfl)
  have hK : Holds ⟨[], [], none, n⟩ s3 ch := ⟨fun _ h => (by cases h), fun _ h => (by cases h), fun _ h => (by cases h), by rw [b8, a11]; exact h3⟩
  obtain ⟨xs, s4, m3, c1, c2, c3, c4, c5, c6, c7, c8, c9, c10⟩ := dialogue_tidy b2 b6 b7 b10 hK hv.plan (fun i => (he i).toCalm) 5
  obtain ⟨s', m4, d1, d2, d5, d6, d7, d8, d9⟩ := parts_ok c3 c4 c5 c10 (fun i => (he i).toCalm) (5 + 6 * xs.length) hv.bye
  have hconn : ∀ j, j ≠ k → s'.srv.conns j = s.srv.conns j := fun j hj => by
    rw [d8.1 j hj, c6.1 j hj, b9.1 j hj, a12 j hj]
  have hopen : ∀ j, Pool.valid j → isOpen (s.sess.objs j).log = true → s'.sess.objs j = s.sess.objs j := fun j hj ho => by
    rw [d7, c7 j hj (by rw [b8, a11]; exact ho) (fun _ h => (by cases h)), b8, a11]
  obtain ⟨_, _, _, ht, _, hs, -⟩ := reach_parts h
  obtain ⟨_, _, _, ht', _, hs', -⟩ := reach_parts d2
  refine ⟨xs, s', m1 ++ [((env 2).brings (chunk .opn 0x46 v.c0 v.openBody), .net (.linkData k)), (env 3, .deliver), (env 4, .deliver)] ++ m3 ++ m4,
    ⟨k, ch, (env 3).chan.token, tx, s1, s2, s3, s4, hl0, a1, a2, a3, a4, b1, ⟨ans, ?_, b4⟩, c1, c2, d1, d5⟩, ?_, d6, ?_, ?_, ?_, ?_, ?_, hopen⟩
  · rw [written_eq b5]
    rfl
  · simpa only [List.append_assoc, List.cons_append, List.nil_append] using d2
  · refine Transport.len_links ht ht' fun j _ => ?_
    by_cases hj : j = k
    · rw [hj, d5, hl0]
    · rw [hconn j hj]
  · rw [d9, c9, ← b11, a10]
  · refine len_same hs hs' fun j hj => ?_
    by_cases ho : isOpen (s.sess.objs j).log = true
    · rw [hopen j hj ho]
    · have hno : isOpen (s'.sess.objs j).log ≠ true := fun hc => ho (by
        rw [d7] at hc
        have := (c8 j hj hc).1
        rw [b8, a11] at this
        exact this)
      rw [Bool.eq_false_iff.mpr ho, Bool.eq_false_iff.mpr hno]
  · intro j hj
    refine hconn j fun hjk => ?_
    rw [hjk, hl0] at hj
    cases hj
  · intro j hj
    have hne : j ≠ ch.toNat := fun hjc => hj (by rw [hjc, ← a10]; exact b3)
    rw [d8.2 j hne, c6.2 j hne, b9.2 j hne, a10]

/-- C81: clients can come and go for ever. -/
theorem C81_forever (h : Reach m u evs s) (hbox : s.box = []) (h1 : s.srv.ids.len ≠ 0) (h2 : s.chans.ids.len ≠ 0) {n : Nat} (h3 : n ≤ s.sess.ids.len)
    {v : Nat → Visit} (hv : ∀ t, (v t).Fine n) {env : Nat → Nat → Env} (he : ∀ t i, Fair (env t i)) :
    ∃ st : Nat → Stack, st 0 = s ∧ ∀ t, (∃ xs, Attended (env t) (v t) (st t) xs (st (t + 1))) ∧ (∃ evs, Reach m u evs (st t)) ∧ (st t).box = [] := by
  let P : Stack → Prop := fun x => (∃ evs, Reach m u evs x) ∧ x.box = [] ∧ x.srv.ids.len ≠ 0 ∧ x.chans.ids.len ≠ 0 ∧ n ≤ x.sess.ids.len
  have hstep : ∀ t (x : Subtype P), ∃ y : Subtype P, ∃ xs, Attended (env t) (v t) x.1 xs y.1 := fun t ⟨x, ⟨evs, g1⟩, g2, g3, g4, g5⟩ => by
    obtain ⟨xs, y, more, p1, p2, p3, p4, p5, p6, -⟩ := C81_visit g1 g2 g3 g4 g5 (hv t) (he t)
    exact ⟨⟨y, ⟨_, p2⟩, p3, by rw [p4]; exact g3, by rw [p5]; exact g4, by rw [p6]; exact g5⟩, xs, p1⟩
  let st : Nat → Subtype P := fun t => Nat.rec ⟨s, ⟨evs, h⟩, hbox, h1, h2, h3⟩ (fun t x => (hstep t x).choose) t
  exact ⟨fun t => (st t).1, rfl, fun t => ⟨(hstep t (st t)).choose_spec, (st t).2.1, (st t).2.2.1⟩⟩

/-- C81: from the start, with up to 32 sessions for each client. -/
theorem C81_from_start (m : Nat → Mem) (u : Nat → UInt32 × UInt32) {n : Nat} (hn : n ≤ 32) {v : Nat → Visit} (hv : ∀ t, (v t).Fine n) {env : Nat → Nat → Env}
    (he : ∀ t i, Fair (env t i)) : ∃ st : Nat → Stack, create m u = .ok (st 0) ∧ ∀ t, ∃ xs, Attended (env t) (v t) (st t) xs (st (t + 1)) := by
  obtain ⟨q, hq, hf⟩ := Pool.free_create
  have hlen : q.len = 32 := hf.holds.hlen.trans (by simp [poolCap])
  have hc : create m u = .ok { srv := ⟨q, fun k => Tcp.create (m k)⟩, chans := ⟨q, fun k => Chan.create (u k).1 (u k).2⟩, sess := ⟨q, fun _ => Sess.create⟩, box := [] } := by
    unfold create Srv.create Ent.create
    rw [hq]
    rfl
  obtain ⟨st, h0, h⟩ := C81_forever (.create hc) rfl (by show q.len ≠ 0; omega) (by show q.len ≠ 0; omega) (n := n) (by show n ≤ q.len; omega) hv he
  exact ⟨st, by rw [h0]; exact hc, fun t => (h t).1⟩

/-! ## Examples -/

def guestHello : HelloMessage := ⟨0, 65536, 65536, 0, 5000, ⟨[0x6F, 0x70, 0x63]⟩⟩

def guestOpen : Cont UaOpenSecureChannelReq 446 := Cont.make 446 { (Ua.init : UaOpenSecureChannelReq) with
  requestHdr := { (Ua.init : UaRequestHeader) with requestHandle := 4 }, requestLifetime := 3600000 }

def guestSec : UaSecurityHeader := { (Ua.init : UaSecurityHeader) with securityPolicyUri := ⟨Channel.policyNone⟩ }

def guestBye : Cont UaCloseSecureChannelReq 452 := Cont.make 452 ⟨{ (Ua.init : UaRequestHeader) with requestHandle := 8 }⟩

/-- Visit `t`: a session is created, activated, read from `t` times, and closed; every other client hangs up without a close request. -/
def guest (t : Nat) : Visit := ⟨guestHello, Wire.wire guestHello, 0, guestSec, ⟨51, 9⟩, guestOpen,
  Wire.wire guestSec ++ (Wire.wire (⟨51, 9⟩ : UaSequenceHeader) ++ Wire.wire guestOpen), visit t, if t % 2 = 0 then .close guestBye 77 (Wire.wire guestBye) else .hangUp⟩

theorem readsOf_tidy {x : UInt32} (hx : Pool.valid x.toNat) (n : Nat) {K : Know} (h1 : K.opened = [x]) (h2 : x ∈ K.active) (h3 : K.last = some x) :
    Tidy K (readsOf x n) := by
  induction n with
  | zero =>
    refine ⟨(Session.closeReq_ok x).says, short_of closeReq_short hx, x, ⟨by rw [h1]; exact List.mem_singleton.mpr rfl, rfl⟩, fun _ _ _ => ?_⟩
    show K.opened.filter _ = []
    rw [h1]
    simp
  | succ n ih => exact ⟨readReq_ok.says, by decide +kernel, x, ⟨h3, h2⟩, fun _ _ _ => ih⟩

theorem visit_tidy (n : Nat) : Tidy ⟨[], [], none, 1⟩ (visit n) := by
  refine ⟨Session.createReq_ok.says, by decide +kernel, Nat.one_pos, fun x ans hx _ hf hl => ?_⟩
  simp only [tokenOf_eq hf hl]
  exact ⟨(Session.activateReq_ok x).says, short_of activateReq_short hx, x, ⟨List.mem_singleton.mpr rfl, rfl⟩,
    fun _ _ _ => readsOf_tidy hx n rfl (List.mem_singleton.mpr rfl) rfl⟩

theorem guest_fine (t : Nat) : (guest t).Fine 1 where
  hello := Accepts.canon guestHello ⟨trivial, trivial, trivial, trivial, trivial, Session.str_ok _ (by decide)⟩
  helloLen := by show (Wire.wire guestHello).length ≤ _; decide +kernel
  «open» := Channel.says_open ⟨Session.str_ok _ (by show Channel.policyNone.length < 2 ^ 31; decide +kernel), Session.bytes_ok, Session.bytes_ok⟩
    ⟨⟨trivial, rfl, rfl⟩, ⟨trivial, trivial, trivial, trivial, Session.str_ok _ (by decide), trivial, Session.ext_ok⟩, trivial, trivial, trivial, Session.bytes_ok, trivial⟩
  openLen := by show (_ ++ _ : List UInt8).length ≤ _; decide +kernel
  plan := visit_tidy t
  bye := fun q id body h => by
    simp only [guest] at h
    split at h
    · injection h with h1 h2 h3
      rw [← h1, ← h3]
      exact ⟨Accepts.canon guestBye ⟨⟨trivial, rfl, rfl⟩, ⟨trivial, trivial, trivial, trivial, Session.str_ok _ (by decide), trivial, Session.ext_ok⟩⟩, by decide +kernel⟩
    · cases h

/-- C81: these visits take place one after the other, from the start and for ever. -/
example : ∃ st : Nat → Stack, create (fun _ => garbage) Channel.unset = .ok (st 0) ∧ ∀ t, ∃ xs, Attended (fun _ => calm) (guest t) (st t) xs (st (t + 1)) :=
  C81_from_start _ _ (n := 1) (by omega) guest_fine fun _ _ => ⟨calm_calm, rfl, rfl, rfl⟩

end Stack

end Uscada.Ua
