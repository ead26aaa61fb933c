import Verif.UaPeerForeign

/-!
# C108: a conversation over the library's server channel

common/ua/protocols/secure/OpcUaServerSecureChannel.cpp:83-251: a client that keeps to the token and to the numbers is understood for as long as it
likes, and every answer is addressed to the request before it.
-/

namespace Uscada.Ua.Peer

open SM Wire
open Channel (word)

attribute [local irreducible] frame openRspEnc sendEnc Channel.openAnswer

variable {p : Peer}

/-! ## Specification -/

/-- One turn of a conversation. -/
inductive Turn where
  /-- a message with this identifier and these bytes arrives for the channel `ch`; while told of it, the user says these things -/
  | asks (ch request : UInt32) (x : List UInt8) (ys : List (List UInt8))
  /-- the user says something -/
  | says (x : List UInt8)
  /-- the client renews the channel -/
  | renews (ch : UInt32) (sec : UaSecurityHeader) (seq : UaSequenceHeader) (req : Cont UaOpenSecureChannelReq 446)

/-- What both sides know: the token, the number of the client's last message, its identifier, the number of the server's next message. -/
structure Known where
  token : UInt32
  seq : UInt32
  request : UInt32
  num : UInt32
deriving DecidableEq, Repr

/-- What is said fits into a chunk, and requests to renew are well formed. -/
def Turn.Fits : Turn → Prop
  | .asks _ _ x ys => x.length ≤ 4072 ∧ ∀ y ∈ ys, y.length ≤ 4072
  | .says x => x.length ≤ 4072
  | .renews _ sec seq req => Wire.ok sec ∧ Wire.ok req ∧ (wire sec ++ (wire seq ++ wire req)).length ≤ 4084

/-- What happens to the channel in a turn. -/
def Turn.event (k : Known) (e : PEnv) : Turn → PEnv × Ev
  | .asks ch r x ys =>
    ({ e with env := { e.env with rx := .ok (chunk msg ch (headed k.token (k.seq + 1) r x)), writes := true }, react := ys.map .send }, .linkData)
  | .says x => ({ e with env := { e.env with writes := true } }, .user (.send x))
  | .renews ch sec seq req =>
    ({ e with env := { e.env with rx := .ok (chunk opn ch (wire sec ++ (wire seq ++ wire req))), writes := true } }, .linkData)

/-- What both sides know after a turn. -/
def Turn.after (k : Known) (e : PEnv) : Turn → Known
  | .asks _ r _ ys => ⟨k.token, k.seq + 1, r, k.num + UInt32.ofNat ys.length⟩
  | .says _ => { k with num := k.num + 1 }
  | .renews _ _ seq _ => ⟨e.token, seq.sequenceNumber, seq.requestId, k.num + 1⟩

/-- The chunks that carry what the user says: with the token, numbered from `n` on, with the identifier of the request. -/
def said (id token request : UInt32) (n : UInt32) : List (List UInt8) → List PAct
  | [] => []
  | x :: xs => .sent (chunk msg id (headed token n request x)) true :: said id token request (n + 1) xs

/-- What an observer of the channel sees of a turn. -/
def Turn.Seen (id : UInt32) (k : Known) (e : PEnv) (l : List PAct) : Turn → Prop
  | .asks ch r x ys => ∃ pay, pay.take x.length = x ∧
      l = .got (chunk msg ch (headed k.token (k.seq + 1) r x)) :: .note (.request pay) :: said id k.token r k.num ys
  | .says x => l = said id k.token k.request k.num [x]
  | .renews ch sec seq req => ∃ ans, Channel.AnswersOpen ans id e.token k.num seq.requestId 0 req.msg.requestLifetime ∧
      l = [.got (chunk opn ch (wire sec ++ (wire seq ++ wire req))), .moved seq.sequenceNumber seq.requestId, .issued e.token, .sent (chunk opn id ans) true]

/-- The events of a conversation. -/
def script (k : Known) : List (PEnv × Turn) → List (PEnv × Ev)
  | [] => []
  | (e, t) :: ts => t.event k e :: script (t.after k e) ts

/-- What both sides know after a conversation. -/
def afterAll (k : Known) : List (PEnv × Turn) → Known
  | [] => k
  | (e, t) :: ts => afterAll (t.after k e) ts

/-- What an observer sees of a conversation. -/
def SeenAll (id : UInt32) (k : Known) : List PAct → List (PEnv × Turn) → Prop
  | l, [] => l = []
  | l, (e, t) :: ts => ∃ l1 l2, l = l1 ++ l2 ∧ t.Seen id k e l1 ∧ SeenAll id (t.after k e) l2 ts

/-- The channel `id` is open, both sides know `k`, and the connection waits for the next chunk. -/
structure Speaks (p : Peer) (id : UInt32) (k : Known) : Prop where
  reach : ∃ es, From es p ∧ ∀ x ∈ es, Good x.1
  longs : Longs p.log
  alive : live p.log = true
  own : chanId p.log = some id
  known : ∃ b, window p.log = some ⟨some k.token, k.seq, k.request, b⟩
  num : k.num = UInt32.ofNat (count p.log + 1)
  ready : Ready p.conn

/-! ## What the user says -/

theorem userSend_ok (q : Peer) (e : PEnv) (x : List UInt8) (hx : x.length ≤ 4072) (hl : q.conn.link = true) (ho : q.conn.opened = true)
    (hw : e.env.writes = true) : ∃ lg, userSend e x q = (.ok (), { q with
      conn := { q.conn with log := lg }, tx := q.tx + 1, log := q.log ++ [.sent (chunk msg q.id (headed q.token q.tx q.reqId x)) true] }) := by
  unfold userSend
  show ∃ lg, (SM.get >>= _) q = _
  rw [bind_ok (show SM.get q = (.ok q, q) from rfl), bind_ok (show SM.modify _ q = (.ok (), { q with tx := q.tx + 1 }) from rfl)]
  have hf := frame_fits (send_writes q.id q.token q.tx q.reqId x) (by
    simp only [List.length_append, MsgStorage.length_leBytes]
    omega)
  rw [List.append_assoc] at hf
  rw [bind_ok (lift_ok hf _)]
  refine ⟨q.conn.log ++ [.sent (chunk msg q.id (headed q.token q.tx q.reqId x))], ?_⟩
  have hsend : transmit e (chunk msg q.id (headed q.token q.tx q.reqId x)) { q with tx := q.tx + 1 } = (.ok .done, { q with
      conn := { q.conn with log := q.conn.log ++ [.sent (chunk msg q.id (headed q.token q.tx q.reqId x))] }, tx := q.tx + 1,
      log := q.log ++ [.sent (chunk msg q.id (headed q.token q.tx q.reqId x)) true] }) := by
    have h2 : onConn (Uscada.Ua.send e.env (chunk msg q.id (headed q.token q.tx q.reqId x))) { q with tx := q.tx + 1 } = (.ok .done, { q with
        conn := { q.conn with log := q.conn.log ++ [.sent (chunk msg q.id (headed q.token q.tx q.reqId x))] }, tx := q.tx + 1 }) := by
      unfold onConn Uscada.Ua.send
      simp only [hl, ho, hw, if_true, Bool.and_self]
    unfold transmit
    rw [bind_ok h2]
    rfl
  show (transmit e (chunk msg q.id (headed q.token q.tx q.reqId x)) >>= _) _ = _
  rw [bind_ok hsend]
  rfl

theorem calls_say (e : PEnv) (hw : e.env.writes = true) (xs : List (List UInt8)) (hx : ∀ x ∈ xs, x.length ≤ 4072) (q : Peer) (hl : q.conn.link = true)
    (ho : q.conn.opened = true) : ∃ lg, calls e (xs.map .send) q = (.ok (), { q with
      conn := { q.conn with log := lg }, tx := q.tx + UInt32.ofNat xs.length, log := q.log ++ said q.id q.token q.reqId q.tx xs }) := by
  induction xs generalizing q with
  | nil =>
    refine ⟨q.conn.log, ?_⟩
    simp only [List.map_nil, calls, said, List.append_nil, List.length_nil]
    show (Exec.ok (), q) = (Exec.ok (), _)
    congr
    · simp
  | cons x xs ih =>
    obtain ⟨lg, h1⟩ := userSend_ok q e x (hx x (by simp)) hl ho hw
    obtain ⟨lg', h2⟩ := ih (fun y hy => hx y (by simp [hy])) { q with
      conn := { q.conn with log := lg }, tx := q.tx + 1, log := q.log ++ [.sent (chunk msg q.id (headed q.token q.tx q.reqId x)) true] } hl ho
    refine ⟨lg', ?_⟩
    show (call e (.send x) >>= fun _ => calls e (xs.map .send)) q = _
    rw [bind_ok (show call e (.send x) q = _ from h1), h2]
    have hn : q.tx + 1 + UInt32.ofNat xs.length = q.tx + UInt32.ofNat (x :: xs).length := by
      rw [List.length_cons, UInt32.ofNat_add, UInt32.add_assoc, UInt32.add_comm 1]
      rfl
    simp only [said, List.append_assoc, List.cons_append, List.nil_append, hn]

theorem said_length (id token request n : UInt32) (xs : List (List UInt8)) (l : List PAct) : count (l ++ said id token request n xs) = count l + xs.length := by
  induction xs generalizing n l with
  | nil => simp [said]
  | cons x xs ih =>
    rw [said, show l ++ PAct.sent (chunk msg id (headed token n request x)) true :: said id token request (n + 1) xs =
      (l ++ [.sent (chunk msg id (headed token n request x)) true]) ++ said id token request (n + 1) xs by simp, ih, count_snoc]
    simp only [List.length_cons]
    omega

theorem said_quiet (id token request n : UInt32) (xs : List (List UInt8)) (l : List PAct) : live (l ++ said id token request n xs) = live l ∧
    chanId (l ++ said id token request n xs) = chanId l ∧ window (l ++ said id token request n xs) = window l ∧
    (Longs l → Longs (l ++ said id token request n xs)) := by
  induction xs generalizing n l with
  | nil => simp [said]
  | cons x xs ih =>
    rw [said, show l ++ PAct.sent (chunk msg id (headed token n request x)) true :: said id token request (n + 1) xs =
      (l ++ [.sent (chunk msg id (headed token n request x)) true]) ++ said id token request (n + 1) xs by simp]
    obtain ⟨h1, h2, h3, h4⟩ := ih (n + 1) (l ++ [.sent (chunk msg id (headed token n request x)) true])
    rw [h1, h2, h3, live_snoc, chanId_snoc, window_snoc]
    exact ⟨rfl, rfl, rfl, fun h => h4 (h.snoc (by intro d hd; cases hd))⟩

/-! ## One turn -/

variable {id : UInt32} {k : Known}

theorem Speaks.state (h : Speaks p id k) : p.st = .established ∧ p.id = id ∧ p.token = k.token ∧ p.rxSeq = k.seq ∧ p.reqId = k.request ∧ p.tx = k.num := by
  obtain ⟨es, hf, -⟩ := h.reach
  obtain ⟨b, hw⟩ := h.known
  have hi := from_pinv hf
  have hs : p.st = .established := by
    rcases Decidable.em (p.st = .established) with h1 | h1
    · exact h1
    · have := hi.tame h1 h.longs h.alive _ hw
      cases this
  obtain ⟨b0, hb0⟩ := hi.win hs h.longs
  rw [hw] at hb0
  injection hb0 with hb0
  injection hb0 with h1 h2 h3 h4
  injection h1 with h1
  have hid := hi.base.id h.alive
  rw [h.own] at hid
  exact ⟨hs, (Option.some.inj hid).symm, h1.symm, h2.symm, h3.symm, hi.base.num.trans h.num.symm⟩

theorem reach_next {es : List (PEnv × Ev)} {x : PEnv × Ev} {p' : Peer} (h : From es p) (hg : ∀ y ∈ es, Good y.1) (hx : Good x.1) (hn : p.next x.1 x.2 = .ok p') :
    ∃ es', From es' p' ∧ ∀ y ∈ es', Good y.1 := by
  obtain ⟨m, a, b, c, d, t, hr⟩ := h
  refine ⟨es ++ [x], ⟨m, a, b, c, d, t, ?_⟩, ?_⟩
  · rw [run_append, hr]
    show (p.next x.1 x.2 >>= fun q => q.run []) = _
    rw [hn]
    rfl
  · intro y hy
    rcases List.mem_append.mp hy with hy | hy
    · exact hg y hy
    · rw [List.mem_singleton] at hy
      rw [hy]
      exact hx

theorem good_event {e : PEnv} (he : Good e) (t : Turn) : Good (t.event k e).1 := by
  cases t with
  | asks ch r x ys => exact ⟨⟨he.avail.1, he.avail.2, he.avail.3, he.avail.4⟩, by simp [Turn.event]⟩
  | says x => exact ⟨⟨he.avail.1, he.avail.2, he.avail.3, he.avail.4⟩, he.calm⟩
  | renews ch sec seq req => exact ⟨⟨he.avail.1, he.avail.2, he.avail.3, he.avail.4⟩, he.calm⟩

theorem says_step (h : Speaks p id k) {e : PEnv} (he : Good e) (x : List UInt8) (hx : x.length ≤ 4072) : ∃ p' l,
    p.next ((Turn.says x).event k e).1 ((Turn.says x).event k e).2 = .ok p' ∧ p'.log = p.log ++ l ∧ (Turn.says x).Seen id k e l ∧
    Speaks p' id ((Turn.says x).after k e) := by
  obtain ⟨hs, hid, htok, hseq, hreq, htx⟩ := h.state
  obtain ⟨lg, hrun⟩ := userSend_ok p ((Turn.says x).event k e).1 x hx h.ready.link h.ready.opened rfl
  have hn : p.next ((Turn.says x).event k e).1 ((Turn.says x).event k e).2 = .ok { p with
      conn := { p.conn with log := lg }, tx := p.tx + 1, log := p.log ++ [.sent (chunk msg p.id (headed p.token p.tx p.reqId x)) true] } := by
    show settle (userSend ((Turn.says x).event k e).1 x p) = _
    rw [hrun]
    rfl
  obtain ⟨es, hf, hg⟩ := h.reach
  obtain ⟨h1, h2, h3, h4⟩ := said_quiet id k.token k.request k.num [x] p.log
  have hlog : ∀ y, p.log ++ [PAct.sent (chunk msg p.id (headed p.token p.tx p.reqId y)) true] = p.log ++ said id k.token k.request k.num [y] := by
    intro y
    rw [hid, htok, htx, hreq]
    rfl
  refine ⟨_, _, hn, hlog x, rfl, reach_next hf hg (good_event he _) hn, ?_, ?_, ?_, ?_, ?_, ?_⟩
  · exact (hlog x) ▸ h4 h.longs
  · show live (p.log ++ _) = true
    rw [hlog, h1]
    exact h.alive
  · show chanId (p.log ++ _) = _
    rw [hlog, h2]
    exact h.own
  · show ∃ b, window (p.log ++ _) = _
    rw [hlog, h3]
    exact h.known
  · show k.num + 1 = UInt32.ofNat (count (p.log ++ _) + 1)
    rw [count_snoc, h.num]
    show _ = UInt32.ofNat (count p.log + 1 + 1)
    rw [UInt32.ofNat_add (count p.log + 1) 1]
    rfl
  · exact ⟨h.ready.st, h.ready.link, h.ready.opened, h.ready.tail, h.ready.head⟩

theorem wire_sec_length (sec : UaSecurityHeader) (seq : UaSequenceHeader) (ys : List UInt8) : 12 ≤ (wire sec ++ (wire seq ++ ys)).length := by
  have h1 : (wire seq).length = 8 := by
    simp [wire, Wire.wire]
  have h2 : 4 ≤ (lenBytes sec.securityPolicyUri.bytes).length := by
    unfold lenBytes
    split
    · simp
    · simp
  have h3 : (wire sec).length = (lenBytes sec.securityPolicyUri.bytes).length + (lenBytes sec.senderCertificate.bytes).length +
      (lenBytes sec.receiverCertificateThumbprint.bytes).length := by
    simp [wire, Wire.wire]
    omega
  simp only [List.length_append]
  omega

theorem renews_step (h : Speaks p id k) {e : PEnv} (he : Good e) (ch : UInt32) (sec : UaSecurityHeader) (seq : UaSequenceHeader)
    (req : Cont UaOpenSecureChannelReq 446) (hx : (Turn.renews ch sec seq req).Fits) : ∃ p' l,
    p.next ((Turn.renews ch sec seq req).event k e).1 ((Turn.renews ch sec seq req).event k e).2 = .ok p' ∧ p'.log = p.log ++ l ∧
    (Turn.renews ch sec seq req).Seen id k e l ∧ Speaks p' id ((Turn.renews ch sec seq req).after k e) := by
  obtain ⟨es, hf, hg⟩ := h.reach
  obtain ⟨p', own, tx, ans, h1, h2, h3, h4, h5, h6, h7⟩ := C44_library_open_partial (e := ((Turn.renews ch sec seq req).event k e).1) hf hg h.ready sec seq req
    hx.1 hx.2.1 ch rfl hx.2.2 rfl rfl
  rw [h.own] at h3
  injection h3 with h3
  subst h3
  rw [h7, ← h.num] at h4
  have hlog : p'.log = p.log ++ [.got (chunk opn ch (wire sec ++ (wire seq ++ wire req)))] ++ [.moved seq.sequenceNumber seq.requestId] ++ [.issued e.token] ++
      [.sent (chunk opn id ans) true] := by
    rw [h2]
    simp [Turn.event]
  refine ⟨p', _, h1, h2, ⟨ans, h4, rfl⟩, reach_next hf hg (good_event he _) h1, ?_, ?_, ?_, ⟨_, h6⟩, ?_, h5⟩
  · rw [h2]
    intro d hd
    rcases List.mem_append.mp hd with hd | hd
    · exact h.longs d hd
    · simp only [List.mem_cons, List.not_mem_nil, or_false, PAct.got.injEq, reduceCtorEq] at hd
      rw [hd]
      have := wire_sec_length sec seq (wire req)
      simp only [chunk, opn, List.length_append, List.length_cons, List.length_nil, MsgStorage.length_leBytes] at this ⊢
      omega
  · rw [hlog, live_snoc, live_snoc, live_snoc, live_snoc]
    exact h.alive
  · rw [hlog, chanId_snoc, chanId_snoc, chanId_snoc, chanId_snoc]
    exact h.own
  · rw [hlog, count_snoc, count_snoc, count_snoc, count_snoc]
    show k.num + 1 = UInt32.ofNat (count p.log + 1 + 1)
    rw [h.num, UInt32.ofNat_add (count p.log + 1) 1]
    rfl

/-- A message arrives, the user is told and speaks. -/
theorem asks_run (h : Speaks p id k) (e : PEnv) (ch r : UInt32) (x : List UInt8) (ys : List (List UInt8)) (hx : x.length ≤ 4072)
    (hy : ∀ y ∈ ys, y.length ≤ 4072) : ∃ p' pay, p.next ((Turn.asks ch r x ys).event k e).1 ((Turn.asks ch r x ys).event k e).2 = .ok p' ∧
      p'.log = p.log ++ .got (chunk msg ch (headed k.token (k.seq + 1) r x)) :: .note (.request pay) :: said id k.token r k.num ys ∧
      pay.take x.length = x ∧ Ready p'.conn := by
  obtain ⟨hs, hid, htok, hseq, hreq, htx⟩ := h.state
  have hr := h.ready
  generalize hd : chunk msg ch (headed k.token (k.seq + 1) r x) = d
  have hd' : d = part msg 0x46 ch (headed k.token (k.seq + 1) r x) := hd.symm
  have hbl := headed_length k.token (k.seq + 1) r x
  have hlen : d.length = x.length + 24 := by rw [hd', part_length, hbl]
  have hc : IsChunk d := by rw [hd']; exact part_isChunk _ _ _ (by omega)
  have hm : d.take 3 = msg := by rw [hd']; rfl
  have h12 : word d 12 = k.token := by rw [hd']; show word _ (12 + 0) = _; rw [word_body]; exact Channel.word_leBytes _ _
  have h16 : word d 16 = k.seq + 1 := by rw [hd']; show word _ (12 + 4) = _; rw [word_body]; exact Channel.word4 _ _ _
  have h20 : word d 20 = r := by
    rw [hd']
    show word _ (12 + 8) = _
    rw [word_body]
    show word (leBytes 4 k.token.toNat ++ (leBytes 4 (k.seq + 1).toNat ++ (leBytes 4 r.toNat ++ x))) (8 + 0) = _
    rw [← List.append_assoc, Channel.word_skip _ _ 8 0 (by simp), Channel.word_leBytes]
  generalize hE : ((Turn.asks ch r x ys).event k e).1 = f
  have hrx : f.env.rx = .ok d := by rw [← hE, ← hd]; rfl
  have hwr : f.env.writes = true := by rw [← hE]; rfl
  have hre : f.react = ys.map .send := by rw [← hE]; rfl
  obtain ⟨b, hb, hbytes, hev⟩ := arrives (p := p) (e := f) hr hc (by omega) hrx
  have hsize : b.size = d.length := by
    rw [← hbytes]
    unfold Buf.bytes
    rw [MsgStorage.length_memRead]
  have hmsg : typeIs b 0x4D 0x53 0x47 = true := by
    rw [typeIs_take (by omega), hbytes]
    exact decide_eq_true hm
  have hopn : typeIs b 0x4F 0x50 0x4E = false := by
    simp only [typeIs, byteIs, Bool.and_eq_true, beq_iff_eq] at hmsg
    simp only [typeIs, byteIs, hmsg.1.1]
    rfl
  have hclo : typeIs b 0x43 0x4C 0x4F = false := by
    simp only [typeIs, byteIs, Bool.and_eq_true, beq_iff_eq] at hmsg
    simp only [typeIs, byteIs, hmsg.1.1]
    rfl
  have hguard : ∀ q : Peer, q.conn.rx = b → q.token = p.token → q.rxSeq = p.rxSeq → receiveGuarded f q =
      (.ok (some ⟨k.seq + 1, r⟩), withRx q (b.skip 24)) := by
    intro q h1 h2 h3
    rcases guarded_run f q with h4 | ⟨_, h4⟩
    · rw [h1, h2, h3, wordAt_eq (b := b) (by omega), wordAt_eq (b := b) (by omega), wordAt_eq (b := b) (by omega), hbytes,
        if_pos ⟨by rw [h12, htok], by rw [h16, hseq]⟩, h16, h20] at h4
      exact h4
    · rw [h1, hb] at h4
      omega
  obtain ⟨lg, hcalls⟩ := calls_say f hwr ys hy { p with
      conn := { p.conn with rx := b.skip 24, log := p.conn.log ++ [.note (.data b.bytes)] }, st := .established, rxSeq := k.seq + 1, reqId := r,
      log := p.log ++ [.got d, .note (.request (b.skip 24).bytes)] } hr.link hr.opened
  refine ⟨{ p with
    conn := { p.conn with rx := (b.skip 24).reset, log := lg }, st := .established, rxSeq := k.seq + 1, reqId := r, tx := p.tx + UInt32.ofNat ys.length,
    log := p.log ++ .got d :: .note (.request (b.skip 24).bytes) :: said id k.token r k.num ys }, (b.skip 24).bytes, ?_, rfl, ?_, ?_⟩
  · show settle (event f .linkData p) = _
    rw [hev]
    have hdata : handleData f { p with conn := { p.conn with rx := b, log := p.conn.log ++ [.note (.data b.bytes)] } } =
        (.ok (), { p with
          conn := { p.conn with rx := b.skip 24, log := lg }, st := .established, rxSeq := k.seq + 1, reqId := r, tx := p.tx + UInt32.ofNat ys.length,
          log := p.log ++ .got d :: .note (.request (b.skip 24).bytes) :: said id k.token r k.num ys }) := by
      unfold handleData
      rw [bind_ok (show SM.get _ = (.ok _, _) from rfl), bind_ok (show act _ _ = (.ok (), _) from rfl)]
      simp only [hopn, hclo, hmsg, hs, if_true, Bool.false_eq_true, if_false]
      unfold onMessage
      rw [bind_ok (hguard { p with
        conn := { p.conn with rx := b, log := p.conn.log ++ [.note (.data b.bytes)] }, st := .established,
        log := p.log ++ [.got b.bytes] } rfl rfl rfl)]
      show (SM.modify _ >>= _) _ = _
      rw [bind_ok (show SM.modify _ _ = (.ok (), _) from rfl), bind_ok (show SM.get _ = (.ok _, _) from rfl)]
      unfold notify
      rw [bind_ok (show act _ _ = (.ok (), _) from rfl), hre]
      simp only [withRx, hbytes, List.append_assoc, List.cons_append, List.nil_append] at hcalls ⊢
      rw [hcalls, ← hid, ← htok, ← htx]
    rw [bind_ok hdata]
    rfl
  · have := bytes_skip (b := b) (n := 24) (by omega)
    rw [hbytes] at this
    have hx2 : d.drop 24 = x := by
      rw [hd', part_split]
      simp [headed, le4]
    rw [hlen, hx2] at this
    simpa using this
  · exact ⟨hr.st, hr.link, hr.opened, rfl, rfl⟩

theorem asks_step (h : Speaks p id k) {e : PEnv} (he : Good e) (ch r : UInt32) (x : List UInt8) (ys : List (List UInt8)) (hx : (Turn.asks ch r x ys).Fits) :
    ∃ p' l, p.next ((Turn.asks ch r x ys).event k e).1 ((Turn.asks ch r x ys).event k e).2 = .ok p' ∧ p'.log = p.log ++ l ∧
      (Turn.asks ch r x ys).Seen id k e l ∧ Speaks p' id ((Turn.asks ch r x ys).after k e) := by
  obtain ⟨es, hf, hg⟩ := h.reach
  obtain ⟨p', pay, h1, h2, h3, h4⟩ := asks_run h e ch r x ys hx.1 hx.2
  have hlog : p'.log = (p.log ++ [.got (chunk msg ch (headed k.token (k.seq + 1) r x))] ++ [.note (.request pay)]) ++ said id k.token r k.num ys := by
    rw [h2]
    simp
  obtain ⟨q1, q2, q3, q4⟩ := said_quiet id k.token r k.num ys (p.log ++ [.got (chunk msg ch (headed k.token (k.seq + 1) r x))] ++ [.note (.request pay)])
  have hlen : (chunk msg ch (headed k.token (k.seq + 1) r x)).length = x.length + 24 := by
    show (part msg 0x46 ch (headed k.token (k.seq + 1) r x)).length = _
    rw [part_length, headed_length]
  refine ⟨p', _, h1, h2, ⟨pay, h3, rfl⟩, reach_next hf hg (good_event he _) h1, ?_, ?_, ?_, ?_, ?_, h4⟩
  · rw [hlog]
    refine q4 (Longs.snoc ?_ (by intro d hd; cases hd))
    intro d hd
    rcases List.mem_append.mp hd with hd | hd
    · exact h.longs d hd
    · simp only [List.mem_cons, List.not_mem_nil, or_false, PAct.got.injEq] at hd
      rw [hd, hlen]
      omega
  · rw [hlog, q1, live_snoc, live_snoc]
    exact h.alive
  · rw [hlog, q2, chanId_snoc, chanId_snoc]
    exact h.own
  · obtain ⟨b, hw⟩ := h.known
    rw [hlog, q3, window_snoc, window_snoc, hw]
    refine ⟨true, ?_⟩
    have h12 : word (chunk msg ch (headed k.token (k.seq + 1) r x)) 12 = k.token := by
      show word (part msg 0x46 ch _) (12 + 0) = _
      rw [word_body]
      exact Channel.word_leBytes _ _
    have h16 : word (chunk msg ch (headed k.token (k.seq + 1) r x)) 16 = k.seq + 1 := by
      show word (part msg 0x46 ch _) (12 + 4) = _
      rw [word_body]
      exact Channel.word4 _ _ _
    have h20 : word (chunk msg ch (headed k.token (k.seq + 1) r x)) 20 = r := by
      show word (part msg 0x46 ch _) (12 + 8) = _
      rw [word_body]
      show word (leBytes 4 k.token.toNat ++ (leBytes 4 (k.seq + 1).toNat ++ (leBytes 4 r.toNat ++ x))) (8 + 0) = _
      rw [← List.append_assoc, Channel.word_skip _ _ 8 0 (by simp), Channel.word_leBytes]
    show some (Window.sees _ _) = _
    unfold Window.sees
    rw [h12, h16, h20, if_pos ⟨rfl, rfl⟩, if_pos (by rfl)]
    rfl
  · rw [hlog, said_length, count_snoc, count_snoc]
    show k.num + UInt32.ofNat ys.length = UInt32.ofNat (count p.log + ys.length + 1)
    rw [h.num, show count p.log + ys.length + 1 = (count p.log + 1) + ys.length by omega, UInt32.ofNat_add (count p.log + 1) ys.length]

/-! ## The whole conversation -/

/-- C108: over an open channel, every conversation in which the client keeps to the token and to the numbers goes its way to the end: each message reaches
the user as it was sent, each thing the user says leaves in a chunk with the token in force, the next number and the identifier of the request before it, and
each request to renew is answered; afterwards the channel is open as before.  `_partial`: every chunk arrives in one piece, the link takes what is sent, and
the answer to a renewal does not echo the request handle. -/
theorem C108_talk_partial (h : Speaks p id k) (ts : List (PEnv × Turn)) (hg : ∀ x ∈ ts, Good x.1 ∧ x.2.Fits) :
    ∃ p' l, p.run (script k ts) = .ok p' ∧ p'.log = p.log ++ l ∧ SeenAll id k l ts ∧ Speaks p' id (afterAll k ts) := by
  induction ts generalizing p k with
  | nil => exact ⟨p, [], rfl, by simp, rfl, h⟩
  | cons x ts ih =>
    obtain ⟨e, t⟩ := x
    obtain ⟨he, hx⟩ := hg (e, t) (by simp)
    have hstep : ∃ p' l, p.next (t.event k e).1 (t.event k e).2 = .ok p' ∧ p'.log = p.log ++ l ∧ t.Seen id k e l ∧ Speaks p' id (t.after k e) := by
      cases t with
      | asks ch r x ys => exact asks_step h he ch r x ys hx
      | says x => exact says_step h he x hx
      | renews ch sec seq req => exact renews_step h he ch sec seq req hx
    obtain ⟨q, l1, h1, h2, h3, h4⟩ := hstep
    obtain ⟨p', l2, h5, h6, h7, h8⟩ := ih h4 fun y hy => hg y (by simp [hy])
    refine ⟨p', l1 ++ l2, ?_, by rw [h6, h2, List.append_assoc], ⟨l1, l2, rfl, h3, h7⟩, h8⟩
    show (p.next (t.event k e).1 (t.event k e).2 >>= fun q => q.run (script (t.after k e) ts)) = _
    rw [h1]
    exact h5

/-- What both sides know when the channel `p` has answered this open request. -/
def known (p : Peer) (token : UInt32) (seq : UaSequenceHeader) : Known := ⟨token, seq.sequenceNumber, seq.requestId, UInt32.ofNat (count p.log + 2)⟩

/-- The first open request opens the conversation. -/
theorem opens {es : List (PEnv × Ev)} (hf : From es p) (hg : ∀ x ∈ es, Good x.1) (hr : Ready p.conn) (hl : Longs p.log) {e : PEnv} (he : Good e) (ch : UInt32)
    (sec : UaSecurityHeader) (seq : UaSequenceHeader) (req : Cont UaOpenSecureChannelReq 446) (hx : (Turn.renews ch sec seq req).Fits) : ∃ p' id ans,
    p.next ((Turn.renews ch sec seq req).event k e).1 ((Turn.renews ch sec seq req).event k e).2 = .ok p' ∧ chanId p.log = some id ∧
    Channel.AnswersOpen ans id e.token (UInt32.ofNat (count p.log + 1)) seq.requestId 0 req.msg.requestLifetime ∧
    p'.log = p.log ++ [.got (chunk opn ch (wire sec ++ (wire seq ++ wire req))), .moved seq.sequenceNumber seq.requestId, .issued e.token,
      .sent (chunk opn id ans) true] ∧ Speaks p' id (known p e.token seq) := by
  obtain ⟨p', id, tx, ans, h1, h2, h3, h4, h5, h6, h7⟩ := C44_library_open_partial (e := ((Turn.renews ch sec seq req).event k e).1) hf hg hr sec seq req
    hx.1 hx.2.1 ch rfl hx.2.2 rfl rfl
  rw [h7] at h4
  have hlive : live p.log = true := by
    obtain ⟨s, cs, l, hpair, hh⟩ := from_ok hf hg
    have hcs : cs = .connected := by rw [← hh.conn.1]; exact hr.st
    subst hcs
    rw [life_live _ _ hh.life]
    cases hpair <;> rfl
  have hlog : p'.log = p.log ++ [.got (chunk opn ch (wire sec ++ (wire seq ++ wire req)))] ++ [.moved seq.sequenceNumber seq.requestId] ++ [.issued e.token] ++
      [.sent (chunk opn id ans) true] := by
    rw [h2]
    simp [Turn.event]
  refine ⟨p', id, ans, h1, h3, h4, h2, reach_next hf hg (good_event he _) h1, ?_, ?_, ?_, ⟨_, h6⟩, ?_, h5⟩
  · rw [h2]
    intro d hd
    rcases List.mem_append.mp hd with hd | hd
    · exact hl d hd
    · simp only [List.mem_cons, List.not_mem_nil, or_false, PAct.got.injEq, reduceCtorEq] at hd
      rw [hd]
      have := wire_sec_length sec seq (wire req)
      simp only [chunk, opn, List.length_append, List.length_cons, List.length_nil, MsgStorage.length_leBytes] at this ⊢
      omega
  · rw [hlog, live_snoc, live_snoc, live_snoc, live_snoc]
    exact hlive
  · rw [hlog, chanId_snoc, chanId_snoc, chanId_snoc, chanId_snoc]
    exact h3
  · rw [hlog, count_snoc, count_snoc, count_snoc, count_snoc]
    rfl

/-- A close request with the token and the next number ends the channel: the user is told, and the connection is closed. -/
theorem closes (h : Speaks p id k) {e : PEnv} (ch r : UInt32) (x : List UInt8) (hx : x.length ≤ 4072) {d : List UInt8}
    (hd : d = chunk clo ch (headed k.token (k.seq + 1) r x)) (hrx : e.env.rx = .ok d) (he : e.react = []) : ∃ p', p.next e .linkData = .ok p' ∧
      p'.log = p.log ++ [.got d, .note .closed] ∧ p'.st = .init ∧ p'.conn.st = .init ∧ p'.conn.link = false ∧ p'.conn.timer = false := by
  obtain ⟨hs, hid, htok, hseq, hreq, htx⟩ := h.state
  have hr := h.ready
  obtain ⟨es, hf, hg⟩ := h.reach
  obtain ⟨s, cs, l, hpair, hh⟩ := from_ok hf hg
  have htimer : p.conn.timer = true := hh.conn.2.timer.mpr (by rw [hr.st]; decide)
  have hbl := headed_length k.token (k.seq + 1) r x
  have hlen : d.length = x.length + 24 := by
    rw [hd]
    simp only [chunk, clo, List.length_append, List.length_cons, List.length_nil, MsgStorage.length_leBytes, hbl]
    omega
  have hc : IsChunk d := by rw [hd]; exact isChunk_chunk _ _ _ _ _ (by omega)
  have hm : d.take 3 = clo := by rw [hd]; rfl
  have h12 : word d 12 = k.token := by rw [hd]; show word (chunk [_, _, _] _ _) (12 + 0) = _; rw [word_chunk]; exact Channel.word_leBytes _ _
  have h16 : word d 16 = k.seq + 1 := by rw [hd]; show word (chunk [_, _, _] _ _) (12 + 4) = _; rw [word_chunk]; exact Channel.word4 _ _ _
  obtain ⟨b, hb, hbytes, hev⟩ := arrives (p := p) hr hc (by omega) hrx
  have hsize : b.size = d.length := by
    rw [← hbytes]
    unfold Buf.bytes
    rw [MsgStorage.length_memRead]
  have hclo : typeIs b 0x43 0x4C 0x4F = true := by
    rw [typeIs_take (by omega), hbytes]
    exact decide_eq_true hm
  have hopn : typeIs b 0x4F 0x50 0x4E = false := by
    simp only [typeIs, byteIs, Bool.and_eq_true, beq_iff_eq] at hclo
    simp only [typeIs, byteIs, hclo.1.1]
    rfl
  have hguard : ∀ q : Peer, q.conn.rx = b → q.token = p.token → q.rxSeq = p.rxSeq → ∃ v, receiveGuarded e q = (.ok (some v), withRx q (b.skip 24)) := by
    intro q h1 h2 h3
    rcases guarded_run e q with h4 | ⟨_, h4⟩
    · rw [h1, h2, h3, wordAt_eq (b := b) (by omega), wordAt_eq (b := b) (by omega), hbytes,
        if_pos ⟨by rw [h12, htok], by rw [h16, hseq]⟩] at h4
      exact ⟨_, h4⟩
    · rw [h1, hb] at h4
      omega
  obtain ⟨v, hv⟩ := hguard { p with
        conn := { p.conn with rx := b, log := p.conn.log ++ [.note (.data b.bytes)] }, st := .established,
        log := p.log ++ [.got b.bytes] } rfl rfl rfl
  refine ⟨{ p with
    st := .init, conn := { p.conn with st := .init, link := false, opened := false, timer := false, armed := false, rx := (b.skip 24).reset, log := p.conn.log ++ [.note (.data b.bytes), .closing] },
    log := p.log ++ [.got d, .note .closed] }, ?_, rfl, rfl, rfl, rfl, rfl⟩
  show settle (event e .linkData p) = _
  rw [hev]
  have hdata : handleData e { p with conn := { p.conn with rx := b, log := p.conn.log ++ [.note (.data b.bytes)] } } =
      (.ok (), { p with
        st := .init, conn := { p.conn with st := .init, link := false, opened := false, timer := false, armed := false, rx := b.skip 24, log := p.conn.log ++ [.note (.data b.bytes), .closing] },
        log := p.log ++ [.got d, .note .closed] }) := by
    unfold handleData
    rw [bind_ok (show SM.get _ = (.ok _, _) from rfl), bind_ok (show act _ _ = (.ok (), _) from rfl)]
    simp only [hopn, hclo, hs, if_true, Bool.false_eq_true, if_false]
    unfold onCloseReq
    rw [bind_ok hv]
    show finish e .closed _ = _
    have hnote : ∀ q : Peer, notify e .closed q = (.ok (), { q with log := q.log ++ [.note .closed] }) := by
      intro q
      unfold notify
      rw [bind_ok (show act _ _ = (.ok (), _) from rfl), he]
      rfl
    unfold finish
    rw [bind_ok (hnote _)]
    have hclose : ∀ q : Peer, q.conn.st = .connected → q.conn.link = true → q.conn.timer = true → onConn userClose q =
        (.ok (), { q with conn := { q.conn with st := .init, link := false, opened := false, timer := false, armed := false, log := q.conn.log ++ [.closing] } }) := by
      intro q h1 h2 h3
      obtain ⟨c, _, _, _, _, _, _, _, _⟩ := q
      cases c
      simp only at h1 h2 h3
      subst h1 h2 h3
      rfl
    rw [bind_ok (hclose _ ?_ ?_ ?_)]
    rotate_left
    · exact hr.st
    · exact hr.link
    · exact htimer
    simp only [withRx, hbytes, List.append_assoc, List.cons_append, List.nil_append]
    rfl
  rw [bind_ok hdata]
  rfl

/-- C108: the life of a channel, from the open request over any conversation to the close request: nothing but the answer, the conversation and the end is
seen, and nothing is left of the connection.  `_partial`: as for `C108_talk_partial`, and the user does not call the channel when told of the end. -/
theorem C108_life_partial {es : List (PEnv × Ev)} (hf : From es p) (hg : ∀ x ∈ es, Good x.1) (hr : Ready p.conn) (hl : Longs p.log) {e : PEnv} (he : Good e)
    (ch : UInt32) (sec : UaSecurityHeader) (seq : UaSequenceHeader) (req : Cont UaOpenSecureChannelReq 446) (hx : (Turn.renews ch sec seq req).Fits)
    (ts : List (PEnv × Turn)) (ht : ∀ x ∈ ts, Good x.1 ∧ x.2.Fits) {f : PEnv} {c r : UInt32} {x : List UInt8} (hy : x.length ≤ 4072) {k' : Known}
    (hk : k' = afterAll (known p e.token seq) ts) (hrx : f.env.rx = .ok (chunk clo c (headed k'.token (k'.seq + 1) r x))) (hre : f.react = []) :
    ∃ p' id ans l, p.run ((Turn.renews ch sec seq req).event k e :: (script (known p e.token seq) ts ++ [(f, .linkData)])) = .ok p' ∧ chanId p.log = some id ∧
      Channel.AnswersOpen ans id e.token (UInt32.ofNat (count p.log + 1)) seq.requestId 0 req.msg.requestLifetime ∧ SeenAll id (known p e.token seq) l ts ∧
      p'.log = p.log ++ [.got (chunk opn ch (wire sec ++ (wire seq ++ wire req))), .moved seq.sequenceNumber seq.requestId, .issued e.token,
        .sent (chunk opn id ans) true] ++ l ++ [.got (chunk clo c (headed k'.token (k'.seq + 1) r x)), .note .closed] ∧
      p'.st = .init ∧ p'.conn.st = .init ∧ p'.conn.link = false ∧ p'.conn.timer = false := by
  obtain ⟨q, id, ans, h1, h2, h3, h4, h5⟩ := opens (k := k) hf hg hr hl he ch sec seq req hx
  obtain ⟨s, l, h6, h7, h8, h9⟩ := C108_talk_partial h5 ts ht
  rw [← hk] at h9
  obtain ⟨p', g1, g2, g3⟩ := closes h9 c r x hy rfl hrx hre
  refine ⟨p', id, ans, l, ?_, h2, h3, h8, by rw [g2, h7, h4], g3⟩
  show (p.next ((Turn.renews ch sec seq req).event k e).1 ((Turn.renews ch sec seq req).event k e).2 >>= fun q =>
    q.run (script (known p e.token seq) ts ++ [(f, .linkData)])) = _
  rw [h1]
  show q.run (script (known p e.token seq) ts ++ [(f, .linkData)]) = _
  rw [run_append, h6]
  show (s.next f .linkData >>= fun q => q.run []) = _
  rw [g1]
  rfl

/-! ## Chunks in pieces -/

/-- The same circumstances, other bytes. -/
def brings (e : PEnv) (d : List UInt8) : PEnv := { e with env := { e.env with rx := .ok d } }

/-- The chunk of an event in pieces: the ones before the last, in circumstances of their own, and the last. -/
def pieces (e : PEnv) (ps : List (PEnv × List UInt8)) (last : List UInt8) : List (PEnv × Ev) :=
  ps.map (fun x => (brings x.1 x.2, .linkData)) ++ [(brings e last, .linkData)]

/-- The first history is the second with some of the chunks cut in pieces that the connection can handle. -/
inductive Cut : List (PEnv × Ev) → List (PEnv × Ev) → Prop where
  | nil : Cut [] []
  | whole (x : PEnv × Ev) {a b : List (PEnv × Ev)} : Cut a b → Cut (x :: a) (x :: b)
  | cut (e : PEnv) (ps : List (PEnv × List UInt8)) (last : List UInt8) {a b : List (PEnv × Ev)} (h : GoodCut (ps.map (·.2), last)) :
      Cut a b → Cut (pieces e ps last ++ a) ((brings e ((ps.map (·.2)).flatten ++ last), .linkData) :: b)

theorem call_brings (e : PEnv) (d d' : List UInt8) (x : PCall) : call (brings e d) x = call (brings e d') x := by
  cases x with
  | «open» => rfl
  | send y => rfl
  | consume n => rfl
  | fail => rfl

theorem calls_brings (e : PEnv) (d d' : List UInt8) (xs : List PCall) : calls (brings e d) xs = calls (brings e d') xs := by
  induction xs with
  | nil => rfl
  | cons x xs ih =>
    show (call (brings e d) x >>= fun _ => calls (brings e d) xs) = (call (brings e d') x >>= fun _ => calls (brings e d') xs)
    rw [ih, call_brings e d d']

theorem notify_brings (e : PEnv) (d d' : List UInt8) (n : PNote) : notify (brings e d) n = notify (brings e d') n := by
  show (act (.note n) >>= fun _ => calls (brings e d) e.react) = (act (.note n) >>= fun _ => calls (brings e d') e.react)
  rw [calls_brings e d d']

theorem finish_brings (e : PEnv) (d d' : List UInt8) (n : PNote) : finish (brings e d) n = finish (brings e d') n := by
  unfold finish
  rw [notify_brings e d d']

theorem handleData_brings (e : PEnv) (d d' : List UInt8) : handleData (brings e d) = handleData (brings e d') := by
  have h0 : receiveGuarded (brings e d) = receiveGuarded (brings e d') := rfl
  have hr : sendOpenRsp (brings e d) = sendOpenRsp (brings e d') := by
    have h : openRspEnc (brings e d) = openRspEnc (brings e d') := by
      unfold openRspEnc
      rfl
    unfold sendOpenRsp
    rw [h]
    rfl
  have h1 : onOpenReq (brings e d) = onOpenReq (brings e d') := by
    unfold onOpenReq
    rw [finish_brings e d d', show receiveOpen (brings e d) = receiveOpen (brings e d') from rfl, hr]
  have h2 : onCloseReq (brings e d) = onCloseReq (brings e d') := by
    unfold onCloseReq
    rw [finish_brings e d d', finish_brings e d d', h0]
  have h3 : onMessage (brings e d) = onMessage (brings e d') := by
    unfold onMessage
    rw [finish_brings e d d', h0]
    congr
    funext g
    cases g with
    | none => rfl
    | some q =>
      simp only
      congr
      funext _
      congr
      funext p
      exact notify_brings e d d' _
  unfold handleData
  rw [h1, h2, h3]

theorem append_append (b : Buf) (x y : List UInt8) : (b.append x).append y = b.append (x ++ y) := by
  have h : memWrite (memWrite b.packet b.head x) (b.head + x.length) y = memWrite b.packet b.head (x ++ y) := by
    funext i
    simp only [memWrite, List.length_append]
    by_cases h1 : b.head + x.length ≤ i ∧ i < b.head + x.length + y.length
    · rw [if_pos h1, if_pos (by omega), getD_app_right _ _ _ (by omega)]
      congr 1
      omega
    · rw [if_neg h1]
      by_cases h2 : b.head ≤ i ∧ i < b.head + x.length
      · rw [if_pos h2, if_pos (by omega), getD_app_left _ _ _ (by omega)]
      · rw [if_neg h2, if_neg (by omega)]
  simp only [Buf.append, h, List.length_append, Nat.add_assoc]

/-- A piece that does not complete the chunk. -/
theorem next_waits (e : PEnv) (x : List UInt8) {b : Buf} (hs : p.conn.st = .connected) (hl : p.conn.link = true) (ho : p.conn.opened = true)
    (h : receive true (.ok x) p.conn.rx = .ok (.noerror, b)) : p.next (brings e x) .linkData = .ok { p with conn := { p.conn with rx := b } } := by
  show settle ((SM.get >>= _) p) = _
  rw [bind_ok (show SM.get p = (.ok p, p) from rfl)]
  simp only [hs]
  have h1 : onConn (receiveRx (brings e x).env) p = (.ok .noerror, { p with conn := { p.conn with rx := b } }) := by
    unfold onConn receiveRx
    rw [if_pos hl, ho, show (brings e x).env.rx = .ok x from rfl, h, ← ho]
  rw [bind_ok h1, ← hs]
  rfl

/-- The piece that completes it. -/
theorem next_completes (e : PEnv) (x : List UInt8) {b : Buf} (hs : p.conn.st = .connected) (hl : p.conn.link = true) (ho : p.conn.opened = true)
    (h : receive true (.ok x) p.conn.rx = .ok (.done, b)) : p.next (brings e x) .linkData = settle ((handleData (brings e x) >>= fun _ => onConn receivePreaction)
      { p with conn := { p.conn with rx := b, log := p.conn.log ++ [.note (.data b.bytes)] } }) := by
  show settle ((SM.get >>= _) p) = _
  rw [bind_ok (show SM.get p = (.ok p, p) from rfl)]
  simp only [hs]
  have h1 : onConn (receiveRx (brings e x).env) p = (.ok .done, { p with conn := { p.conn with rx := b } }) := by
    unfold onConn receiveRx
    rw [if_pos hl, ho, show (brings e x).env.rx = .ok x from rfl, h, ← ho]
  rw [bind_ok h1, ← hs]
  rfl

/-- C108: pieces have the effect of the whole chunk. -/
theorem pieces_run (hr : Ready p.conn) (e : PEnv) (ps : List (PEnv × List UInt8)) (last : List UInt8) (h : GoodCut (ps.map (·.2), last)) :
    p.run (pieces e ps last) = p.next (brings e ((ps.map (·.2)).flatten ++ last)) .linkData := by
  obtain ⟨hc, hlast, h1024, h4096⟩ := h
  have key : ∀ (ps : List (PEnv × List UInt8)) (pre : List UInt8) (q : Peer), pre ++ ((ps.map (·.2)).flatten ++ last) = (pre ++ (ps.map (·.2)).flatten) ++ last →
      IsChunk ((pre ++ (ps.map (·.2)).flatten) ++ last) → (pre ++ (ps.map (·.2)).flatten).length ≤ 1024 → ((pre ++ (ps.map (·.2)).flatten) ++ last).length ≤ 4096 →
      q = { p with conn := { p.conn with rx := p.conn.rx.append pre } } →
      q.run (pieces e ps last) = p.next (brings e ((pre ++ (ps.map (·.2)).flatten) ++ last)) .linkData := by
    intro ps
    have h0 : memRead p.conn.rx.packet 0 p.conn.rx.head = [] := by rw [hr.head]; rfl
    induction ps with
    | nil =>
      intro pre q _ g1 g2 g3 hq
      simp only [List.map_nil, List.flatten_nil, List.append_nil] at g1 g2 g3 ⊢
      have hm := memRead_append p.conn.rx [] (pre ++ last) h0
      have hev := evaluate_prefix (p.conn.rx.append (pre ++ last)) (pre ++ last) [] hr.tail hm (by rw [List.append_nil]; exact g1)
      rw [if_pos rfl] at hev
      rw [List.length_append] at g3
      have hrecv := receive_ok (b := p.conn.rx) (x := pre ++ last) (by rw [hr.head]; omega) (by rw [hr.head, List.length_append]; omega) hev
      have hrecv' : receive true (.ok last) (p.conn.rx.append pre) = .ok (.done, p.conn.rx.append (pre ++ last)) := by
        rw [← append_append] at hev ⊢
        exact receive_ok (by show p.conn.rx.head + _ ≤ _; rw [hr.head]; omega) (by show p.conn.rx.head + _ + _ ≤ _; rw [hr.head]; omega) hev
      rw [next_completes e _ hr.st hr.link hr.opened hrecv]
      show (q.next (brings e last) .linkData >>= fun q => q.run []) = _
      subst hq
      rw [next_completes (p := { p with conn := { p.conn with rx := p.conn.rx.append pre } }) e last hr.st hr.link hr.opened hrecv', handleData_brings e last (pre ++ last)]
      show (settle _ >>= fun q => Exec.ok q) = _
      cases settle _ <;> rfl
    | cons x ps ih =>
      intro pre q g0 g1 g2 g3 hq
      simp only [List.map_cons, List.flatten_cons] at g0 g1 g2 g3 ⊢
      have hm := memRead_append p.conn.rx [] (pre ++ x.2) h0
      have hne : (ps.map (·.2)).flatten ++ last ≠ [] := fun h => hlast (List.append_eq_nil_iff.1 h).2
      have hev := evaluate_prefix (p.conn.rx.append (pre ++ x.2)) (pre ++ x.2) ((ps.map (·.2)).flatten ++ last) hr.tail hm (by
        simpa only [List.append_assoc] using g1)
      rw [if_neg hne, ← append_append] at hev
      simp only [List.length_append] at g2 g3
      have hrecv : receive true (.ok x.2) (p.conn.rx.append pre) = .ok (.noerror, p.conn.rx.append (pre ++ x.2)) := by
        rw [← append_append]
        exact receive_ok (by show p.conn.rx.head + _ ≤ _; rw [hr.head]; omega) (by show p.conn.rx.head + _ + _ ≤ _; rw [hr.head]; omega) hev
      show (q.next (brings x.1 x.2) .linkData >>= fun q => q.run (pieces e ps last)) = _
      subst hq
      rw [next_waits (p := { p with conn := { p.conn with rx := p.conn.rx.append pre } }) x.1 x.2 hr.st hr.link hr.opened hrecv, Exec.ok_bind]
      have := ih (pre ++ x.2) { p with conn := { p.conn with rx := p.conn.rx.append (pre ++ x.2) } } (by simp only [List.append_assoc])
        (by simpa only [List.append_assoc] using g1) (by simp only [List.length_append]; omega) (by simp only [List.length_append]; omega) rfl
      simpa only [List.append_assoc] using this
  have hb : p.conn.rx.append [] = p.conn.rx := by
    have : memWrite p.conn.rx.packet p.conn.rx.head [] = p.conn.rx.packet := by
      funext i
      simp only [memWrite, List.length_nil]
      rw [if_neg (by omega)]
    simp only [Buf.append, this, List.length_nil, Nat.add_zero]
  have := key ps [] p (by simp) hc h1024 h4096 (by rw [hb])
  simpa using this

/-- C108, with the chunks in pieces: a conversation whose chunks arrive in pieces, no more than 1024 bytes of a chunk before its last piece, goes its way
like one whose chunks arrive whole.  `_partial`: the other cuts end the connection (C30). -/
theorem C108_pieces_partial (h : Speaks p id k) (ts : List (PEnv × Turn)) (hg : ∀ x ∈ ts, Good x.1 ∧ x.2.Fits) {es : List (PEnv × Ev)}
    (hc : Cut es (script k ts)) : ∃ p' l, p.run es = .ok p' ∧ p'.log = p.log ++ l ∧ SeenAll id k l ts ∧ Speaks p' id (afterAll k ts) := by
  induction ts generalizing p k es with
  | nil =>
    cases hc
    exact ⟨p, [], rfl, by simp, rfl, h⟩
  | cons x ts ih =>
    obtain ⟨e, t⟩ := x
    obtain ⟨he, hx⟩ := hg (e, t) (by simp)
    have hstep : ∃ p' l, p.next (t.event k e).1 (t.event k e).2 = .ok p' ∧ p'.log = p.log ++ l ∧ t.Seen id k e l ∧ Speaks p' id (t.after k e) := by
      cases t with
      | asks ch r x ys => exact asks_step h he ch r x ys hx
      | says x => exact says_step h he x hx
      | renews ch sec seq req => exact renews_step h he ch sec seq req hx
    obtain ⟨q, l1, h1, h2, h3, h4⟩ := hstep
    have hcut : ∃ a b, es = a ++ b ∧ Cut b (script (t.after k e) ts) ∧ p.run a = p.next (t.event k e).1 (t.event k e).2 := by
      generalize hs : script k ((e, t) :: ts) = s at hc
      cases hc with
      | nil => cases hs
      | whole x hc =>
        injection hs with h5 h6
        subst h5 h6
        refine ⟨[t.event k e], _, rfl, hc, ?_⟩
        show (p.next (t.event k e).1 (t.event k e).2 >>= fun q => Exec.ok q) = _
        cases p.next (t.event k e).1 (t.event k e).2 <;> rfl
      | cut f ps last hgood hc =>
        injection hs with h5 h6
        subst h6
        refine ⟨_, _, rfl, hc, ?_⟩
        rw [h5]
        exact pieces_run h.ready f ps last hgood
    obtain ⟨a, b, rfl, hb, ha⟩ := hcut
    obtain ⟨p', l2, h5, h6, h7, h8⟩ := ih h4 (fun y hy => hg y (by simp [hy])) hb
    refine ⟨p', l1 ++ l2, ?_, by rw [h6, h2, List.append_assoc], ⟨l1, l2, rfl, h3, h7⟩, h8⟩
    rw [run_append, ha, h1]
    exact h5

/-! ## Requests that overtake answers -/

theorem word_request (id token n request : UInt32) (x : List UInt8) : word (chunk msg id (headed token n request x)) 20 = request := by
  show word (part msg 0x46 id _) (12 + 8) = _
  rw [word_body]
  show word (leBytes 4 token.toNat ++ (leBytes 4 n.toNat ++ (leBytes 4 request.toNat ++ x))) (8 + 0) = _
  rw [← List.append_assoc, Channel.word_skip _ _ 8 0 (by simp), Channel.word_leBytes]

/-- All that the user says between two messages is addressed to the request before. -/
theorem says_request (zs : List (PEnv × List UInt8)) {l : List PAct} (h : SeenAll id k l (zs.map fun z => (z.1, .says z.2))) :
    (∀ d ok, .sent d ok ∈ l → word d 20 = k.request) ∧ l.length = zs.length := by
  induction zs generalizing k l with
  | nil =>
    cases h
    exact ⟨(fun d ok hd => by cases hd), rfl⟩
  | cons z zs ih =>
    obtain ⟨l1, l2, rfl, h1, h2⟩ := h
    cases h1
    obtain ⟨h3, h4⟩ := ih h2
    refine ⟨?_, by rw [List.length_append, h4]; simp [said]; omega⟩
    intro d ok hd
    rcases List.mem_append.mp hd with hd | hd
    · simp only [said, List.mem_cons, List.not_mem_nil, or_false, PAct.sent.injEq] at hd
      rw [hd.1, word_request]
    · exact h3 d ok hd

/-- Against C108: when a second request arrives before the first one was answered, the first one can not be answered any more: until the next message,
everything that the user says leaves with the identifier of the second one. -/
theorem C108_pipelined_violated (h : Speaks p id k) {e f : PEnv} (he : Good e) (hf : Good f) (ch r1 r2 : UInt32) (hne : r1 ≠ r2) (x y : List UInt8)
    (hx : x.length ≤ 4072) (hy : y.length ≤ 4072) (zs : List (PEnv × List UInt8)) (hz : ∀ z ∈ zs, Good z.1 ∧ z.2.length ≤ 4072) :
    ∃ p' pay1 pay2 l, p.run (script k ((e, .asks ch r1 x []) :: (f, .asks ch r2 y []) :: zs.map fun z => (z.1, .says z.2))) = .ok p' ∧
      p'.log = p.log ++ [.got (chunk msg ch (headed k.token (k.seq + 1) r1 x)), .note (.request pay1),
        .got (chunk msg ch (headed k.token (k.seq + 1 + 1) r2 y)), .note (.request pay2)] ++ l ∧ pay1.take x.length = x ∧ pay2.take y.length = y ∧
      l.length = zs.length ∧ ∀ d ok, .sent d ok ∈ l → word d 20 = r2 ∧ word d 20 ≠ r1 := by
  obtain ⟨p', l, h1, h2, h3, -⟩ := C108_talk_partial h ((e, .asks ch r1 x []) :: (f, .asks ch r2 y []) :: zs.map fun z => (z.1, .says z.2)) (by
    intro t ht
    simp only [List.mem_cons, List.mem_map] at ht
    rcases ht with rfl | rfl | ⟨z, hm, rfl⟩
    · exact ⟨he, hx, by simp⟩
    · exact ⟨hf, hy, by simp⟩
    · exact hz z hm)
  obtain ⟨l1, m1, e1, ⟨pay1, q1, s1⟩, l2, m2, e2, ⟨pay2, q2, s2⟩, h4⟩ := h3
  obtain ⟨h5, h6⟩ := says_request zs h4
  refine ⟨p', pay1, pay2, m2, h1, ?_, q1, q2, h6, fun d ok hd => ?_⟩
  · rw [h2, e1, e2, s1, s2]
    simp [said, Turn.after]
  · have h7 : word d 20 = r2 := h5 d ok hd
    exact ⟨h7, fun h8 => hne (h8.symm.trans h7)⟩

/-! ## Examples -/

/-- A message, two answers while told of it, a renewal with another number, one more message, and an answer to it. -/
def chat : List (PEnv × Turn) := [(env, .asks 5 10 [1, 2, 3] [[4], [5, 6]]), (env, .says [7]), ({ env with token := 78 }, .renews 5
    { (Ua.init : UaSecurityHeader) with securityPolicyUri := ⟨Channel.policyNone⟩ } ⟨51, 9⟩ (Cont.make 446 { (Ua.init : UaOpenSecureChannelReq) with
    requestHdr := { (Ua.init : UaRequestHeader) with requestHandle := 4 }, requestLifetime := 3600000 })), (env, .asks 5 11 [8] []), (env, .says [9])]

theorem chat_fits : ∀ x ∈ chat, Good x.1 ∧ x.2.Fits := by
  have he : ∀ t, Good { env with token := t } := fun t => ⟨⟨rfl, rfl, rfl, rfl⟩, by simp [env]⟩
  intro x hx
  simp only [chat, List.mem_cons, List.not_mem_nil, or_false] at hx
  rcases hx with rfl | rfl | rfl | rfl | rfl
  · exact ⟨he _, by simp [Turn.Fits]⟩
  · exact ⟨he _, by simp [Turn.Fits]⟩
  · exact ⟨he _, ⟨show Channel.policyNone.length < 2 ^ 31 by decide +kernel, Nat.two_pow_pos 31, Nat.two_pow_pos 31⟩, ⟨⟨trivial, rfl, rfl⟩, ⟨trivial, trivial, trivial,
      trivial, Nat.two_pow_pos 31, trivial, trivial, trivial, fun h => by cases h⟩, trivial, trivial, trivial, Nat.two_pow_pos 31, trivial⟩, by decide +kernel⟩
  · exact ⟨he _, by simp [Turn.Fits]⟩
  · exact ⟨he _, by simp [Turn.Fits]⟩

/-- C108: the chunks of `chat`: numbers 2, 3, 4 for the request 10, 5 for the renewal, 6 for the request 11 with the new token. -/
example : ∃ p p', From oldStart p ∧ p.run (script ⟨77, 4294966272, 9, 2⟩ chat) = .ok p' ∧ Speaks p' 5 ⟨78, 52, 11, 7⟩ ∧
    .sent (chunk msg 5 (headed 77 3 10 [5, 6])) true ∈ p'.log ∧ .sent (chunk msg 5 (headed 77 4 10 [7])) true ∈ p'.log ∧
    .sent (chunk msg 5 (headed 78 6 11 [9])) true ∈ p'.log := by
  obtain ⟨p, h, hl, hr⟩ := look_from old_look
  have hs : Speaks p 5 ⟨77, 4294966272, 9, 2⟩ := ⟨⟨_, h, old_good⟩, by rw [hl]; exact longs_of (by decide +kernel), by rw [hl]; decide +kernel,
    by rw [hl]; decide +kernel, by rw [hl]; exact ⟨false, by decide +kernel⟩, by rw [hl]; decide +kernel, hr⟩
  obtain ⟨p', l, h1, h2, h3, h4⟩ := C108_talk_partial hs chat chat_fits
  refine ⟨p, p', h, h1, h4, ?_⟩
  rw [h2]
  obtain ⟨l1, m1, e1, ⟨_, _, s1⟩, l2, m2, e2, s2, l3, m3, e3, -, l4, m4, e4, -, l5, m5, e5, s5, -⟩ := h3
  subst e5 e4 e3 e2 e1
  rw [s1, s2, s5]
  simp [said, Turn.after]

/-- C108: a message in three pieces and its answer. -/
example : ∃ p p', From oldStart p ∧ p.run [arrive ((chunk msg 5 (headed 77 4294966273 10 [1, 2])).take 3), arrive (((chunk msg 5 (headed 77 4294966273 10 [1, 2])).drop 3).take 10),
    arrive ((chunk msg 5 (headed 77 4294966273 10 [1, 2])).drop 13), (env, .user (.send [3]))] = .ok p' ∧ Speaks p' 5 ⟨77, 4294966273, 10, 3⟩ := by
  obtain ⟨p, h, hl, hr⟩ := look_from old_look
  have hs : Speaks p 5 ⟨77, 4294966272, 9, 2⟩ := ⟨⟨_, h, old_good⟩, by rw [hl]; exact longs_of (by decide +kernel), by rw [hl]; decide +kernel,
    by rw [hl]; decide +kernel, by rw [hl]; exact ⟨false, by decide +kernel⟩, by rw [hl]; decide +kernel, hr⟩
  obtain ⟨p', l, h1, -, -, h2⟩ := C108_pieces_partial hs [(env, .asks 5 10 [1, 2] []), (env, .says [3])] (by
      intro z hz
      simp only [List.mem_cons, List.not_mem_nil, or_false] at hz
      rcases hz with rfl | rfl
      · exact ⟨good_env _, by simp [Turn.Fits]⟩
      · exact ⟨good_env _, by simp [Turn.Fits]⟩)
    (Cut.cut env [(env, (chunk msg 5 (headed 77 4294966273 10 [1, 2])).take 3), (env, ((chunk msg 5 (headed 77 4294966273 10 [1, 2])).drop 3).take 10)]
      ((chunk msg 5 (headed 77 4294966273 10 [1, 2])).drop 13) ⟨part_isChunk 0x46 5 (headed 77 4294966273 10 [1, 2]) (by decide), by decide, by decide, by decide⟩
      (Cut.whole (env, .user (.send [3])) Cut.nil))
  exact ⟨p, p', h, h1, h2⟩

/-- C108: the requests 10 and 11 arrive, then the answers; both leave for the request 11. -/
example : ∃ p p' pay1 pay2 l, From oldStart p ∧ p.run (script ⟨77, 4294966272, 9, 2⟩ [(env, .asks 5 10 [1] []), (env, .asks 5 11 [2] []), (env, .says [3]),
    (env, .says [4])]) = .ok p' ∧ p'.log = p.log ++ [.got (chunk msg 5 (headed 77 4294966273 10 [1])), .note (.request pay1),
      .got (chunk msg 5 (headed 77 4294966274 11 [2])), .note (.request pay2)] ++ l ∧ l.length = 2 ∧ ∀ d ok, .sent d ok ∈ l → word d 20 = 11 := by
  obtain ⟨p, h, hl, hr⟩ := look_from old_look
  have hs : Speaks p 5 ⟨77, 4294966272, 9, 2⟩ := ⟨⟨_, h, old_good⟩, by rw [hl]; exact longs_of (by decide +kernel), by rw [hl]; decide +kernel,
    by rw [hl]; decide +kernel, by rw [hl]; exact ⟨false, by decide +kernel⟩, by rw [hl]; decide +kernel, hr⟩
  obtain ⟨p', pay1, pay2, l, h1, h2, -, -, h3, h4⟩ := C108_pipelined_violated hs (good_env _) (good_env _) 5 10 11 (by decide) [1] [2] (by decide) (by decide)
    [(env, [3]), (env, [4])] (by
      intro z hz
      simp only [List.mem_cons, List.not_mem_nil, or_false] at hz
      rcases hz with rfl | rfl
      · exact ⟨good_env _, by decide⟩
      · exact ⟨good_env _, by decide⟩)
  exact ⟨p, p', pay1, pay2, l, h, h1, h2, h3, fun d ok hd => (h4 d ok hd).1⟩

/-- A channel waits for an open request. -/
def greeted : List (PEnv × Ev) := [(env, .user .open), arrive helloFrame]

/-- C108: the life of the channel 5 with one message and one answer, from the open request with the number 51 to the close request with the number 53. -/
example : ∃ p p', From greeted p ∧ p.run [arrive openChunk,
      ({ env with env := { calmEnv with rx := .ok (msgChunk 52 10 [1]) }, react := [.send [2]] }, .linkData), arrive (chunk clo 5 (headed 77 53 11 []))] = .ok p' ∧
    p'.st = .init ∧ p'.conn.link = false ∧ .sent (chunk msg 5 (headed 77 2 10 [2])) true ∈ p'.log := by
  have hlook : look greeted = .ok (⟨.waiting, .connected, true, [.opening 5]⟩, true, 0, 0) := by decide +kernel
  obtain ⟨p, h1, h2⟩ := Exec.bind_eq_ok.mp hlook
  injection h2 with h2
  have hv := congrArg Prod.fst h2
  have hl : p.log = [.opening 5] := congrArg View.log hv
  have hr : Ready p.conn := ⟨congrArg View.conn hv, congrArg View.link hv, congrArg (fun x => x.2.1) h2, congrArg (fun x => x.2.2.1) h2,
    congrArg (fun x => x.2.2.2) h2⟩
  have hg : ∀ x ∈ greeted, Good x.1 := by
    intro x hx
    simp only [greeted, List.mem_cons, List.not_mem_nil, or_false] at hx
    rcases hx with rfl | rfl
    · exact good_env _
    · exact good_env _
  have hf : From greeted p := ⟨_, _, _, _, _, _, h1⟩
  have hk : ⟨77, 52, 10, 3⟩ = afterAll (known p 77 ⟨51, 9⟩) [(env, .asks 5 10 [1] [[2]])] := by
    unfold known
    rw [hl]
    decide +kernel
  obtain ⟨p', id, ans, l, h3, h4, -, h5, h6, h7, -, h8, -⟩ := C108_life_partial (k := ⟨0, 0, 0, 0⟩) hf hg hr (by rw [hl]; exact longs_of (by decide +kernel))
    (e := env) (good_env _) 0 { (Ua.init : UaSecurityHeader) with securityPolicyUri := ⟨Channel.policyNone⟩ } ⟨51, 9⟩ (Cont.make 446
      { (Ua.init : UaOpenSecureChannelReq) with requestHdr := { (Ua.init : UaRequestHeader) with requestHandle := 4 }, requestLifetime := 3600000 })
    (chat_fits _ (List.mem_cons_of_mem _ (List.mem_cons_of_mem _ List.mem_cons_self))).2 [(env, .asks 5 10 [1] [[2]])]
    (by
      intro x hx
      rw [List.mem_singleton] at hx
      subst hx
      exact ⟨good_env _, by simp [Turn.Fits]⟩) (f := (arrive (chunk clo 5 (headed 77 53 11 []))).1) (c := 5) (r := 11) (x := []) (by simp) hk rfl rfl
  have hid : id = 5 := by
    rw [hl] at h4
    exact (Option.some.inj h4).symm
  subst hid
  refine ⟨p, p', hf, ?_, h7, h8, ?_⟩
  · exact h3
  · obtain ⟨l1, m1, e1, ⟨_, _, s1⟩, -⟩ := h5
    have hn : (known p 77 ⟨51, 9⟩).num = 2 := by
      unfold known
      rw [hl]
      decide +kernel
    rw [h6, e1, s1]
    show _ ∈ _ ++ (_ :: _ :: said 5 77 10 (known p 77 ⟨51, 9⟩).num [[2]] ++ m1) ++ _
    rw [hn]
    simp [said]

end Uscada.Ua.Peer
