import Verif.UaPeerLife
/-!
# What the server secure channel of `common/ua/protocols/secure` does with the requests it gets

C33 (the other direction), C44, and the counterexamples against C33, C34, C44, C46, C56 and C57.
-/

namespace Uscada.Ua.Peer

open SM
open Channel (word openAnswer)

attribute [local irreducible] frame openRspEnc sendEnc Channel.openAnswer chunk

variable {es : List (PEnv × Ev)} {p : Peer} {e : PEnv}

/-- A chunk arrives in one piece. -/
theorem arrives (hr : Ready p.conn) {d : List UInt8} (hc : IsChunk d) (hl : d.length ≤ 4096) (hx : e.env.rx = .ok d) :
    ∃ b : Buf, b.tail = 0 ∧ b.bytes = d ∧ event e .linkData p = (handleData e >>= fun _ => onConn receivePreaction)
      { p with conn := { p.conn with rx := b, log := p.conn.log ++ [.note (.data b.bytes)] } } := by
  have h0 : memRead p.conn.rx.packet 0 p.conn.rx.head = [] := by rw [hr.head]; rfl
  have hm := memRead_append p.conn.rx [] d h0
  have ht : (p.conn.rx.append d).tail = 0 := hr.tail
  have hev := evaluate_prefix (p.conn.rx.append d) d [] ht hm (by rw [List.append_nil]; exact hc)
  rw [if_pos rfl] at hev
  have hrecv := receive_ok (b := p.conn.rx) (by rw [hr.head]; omega) (by rw [hr.head]; omega) hev
  refine ⟨p.conn.rx.append d, ht, ?_, ?_⟩
  · unfold Buf.bytes
    rw [ht]
    exact hm
  · show (SM.get >>= _) p = _
    rw [bind_ok (show SM.get p = (.ok p, p) from rfl)]
    simp only [hr.st]
    have h1 : onConn (receiveRx e.env) p = (.ok .done, { p with conn := { p.conn with rx := p.conn.rx.append d } }) := by
      unfold onConn receiveRx
      rw [if_pos hr.link, hr.opened, hx, hrecv, ← hr.opened]
    rw [bind_ok h1, ← hr.st]
    rfl

/-- C33, the other direction: while a channel is in use, a message that carries the token issued last and the number after the
one accepted last is passed to the user, and nothing else happens. -/
theorem C33_library_accepts (h : From es p) (hl : Longs p.log) (hv : live p.log = true) {w : Window} {t : UInt32}
    (hw : window p.log = some w) (ht : w.token = some t) (hr : Ready p.conn) {d : List UInt8} (hc : IsChunk d)
    (h24 : 24 ≤ d.length) (h4096 : d.length ≤ 4096) (hm : d.take 3 = msg) (h12 : word d 12 = t) (h16 : word d 16 = w.seq + 1)
    (hx : e.env.rx = .ok d) (he : e.react = []) : ∃ p' pay, p.next e .linkData = .ok p' ∧
      p'.log = p.log ++ [.got d, .note (.request pay)] ∧ pay.take (d.length - 24) = d.drop 24 ∧ Ready p'.conn := by
  have hi := from_pinv h
  have hs : p.st = .established := by
    rcases Decidable.em (p.st = .established) with h1 | h1
    · exact h1
    · have := hi.tame h1 hl hv w hw
      rw [ht] at this
      cases this
  obtain ⟨b0, hb0⟩ := hi.win hs hl
  rw [hw] at hb0
  injection hb0 with hb0
  subst hb0
  injection ht with ht
  obtain ⟨b, hb, hbytes, hev⟩ := arrives (p := p) hr hc h4096 hx
  have hsize : b.size = d.length := by
    rw [← hbytes]
    unfold Buf.bytes
    rw [MsgStorage.length_memRead]
  have hmsg : typeIs b 0x4D 0x53 0x47 = true := by
    rw [typeIs_take (by omega), hbytes]
    exact decide_eq_true hm
  have hopn : typeIs b 0x4F 0x50 0x4E = false := by
    simp only [typeIs, byteIs, Bool.and_eq_true, beq_iff_eq] at hmsg
    simp only [typeIs, byteIs, hmsg.1.1]
    rfl
  have hclo : typeIs b 0x43 0x4C 0x4F = false := by
    simp only [typeIs, byteIs, Bool.and_eq_true, beq_iff_eq] at hmsg
    simp only [typeIs, byteIs, hmsg.1.1]
    rfl
  have hguard : ∀ q : Peer, q.conn.rx = b → q.token = p.token → q.rxSeq = p.rxSeq → receiveGuarded e q =
      (.ok (some ⟨wordAt b 16, wordAt b 20⟩), withRx q (b.skip 24)) := by
    intro q h1 h2 h3
    rcases guarded_run e q with h4 | ⟨_, h4⟩
    · rw [h1, h2, h3, wordAt_eq (b := b) (by omega), wordAt_eq (b := b) (by omega), hbytes, if_pos ⟨by rw [h12, ht], h16⟩] at h4
      rw [h4, wordAt_eq (by omega), wordAt_eq (by omega), hbytes]
    · rw [h1, hb] at h4
      omega
  refine ⟨{ p with
    conn := { p.conn with rx := (b.skip 24).reset, log := p.conn.log ++ [.note (.data b.bytes)] }, rxSeq := wordAt b 16,
    reqId := wordAt b 20, log := p.log ++ [.got d, .note (.request (b.skip 24).bytes)] }, (b.skip 24).bytes, ?_, rfl, ?_, ?_⟩
  · show settle (event e .linkData p) = _
    rw [hev]
    have hdata : handleData e { p with conn := { p.conn with rx := b, log := p.conn.log ++ [.note (.data b.bytes)] } } =
        (.ok (), { p with
          conn := { p.conn with rx := b.skip 24, log := p.conn.log ++ [.note (.data b.bytes)] }, rxSeq := wordAt b 16,
          reqId := wordAt b 20, log := p.log ++ [.got d, .note (.request (b.skip 24).bytes)] }) := by
      unfold handleData
      rw [bind_ok (show SM.get _ = (.ok _, _) from rfl), bind_ok (show act _ _ = (.ok (), _) from rfl)]
      simp only [hopn, hclo, hmsg, hs, if_true, Bool.false_eq_true, if_false]
      unfold onMessage
      rw [bind_ok (hguard { p with
        conn := { p.conn with rx := b, log := p.conn.log ++ [.note (.data b.bytes)] }, st := .established,
        log := p.log ++ [.got b.bytes] } rfl rfl rfl)]
      show (SM.modify _ >>= _) _ = _
      rw [bind_ok (show SM.modify _ _ = (.ok (), _) from rfl), bind_ok (show SM.get _ = (.ok _, _) from rfl)]
      unfold notify
      rw [bind_ok (show act _ _ = (.ok (), _) from rfl), he]
      simp only [calls, withRx, hbytes, List.append_assoc, List.cons_append, List.nil_append]
      rfl
    rw [bind_ok hdata]
    rfl
  · rw [← hbytes]
    exact bytes_skip (by omega)
  · exact ⟨hr.st, hr.link, hr.opened, rfl, rfl⟩

/-! ## Open requests -/

theorem reads_part {α : Type} {c : Codec α} {w : List UInt8} {v : α} (hr : Reads c w v) {b : Buf} {d pre post : List UInt8}
    (hb : memRead b.packet 0 d.length = d) (hd : d = pre ++ (w ++ post)) (ht : b.tail = pre.length) (hl : d.length ≤ 4096) :
    c b = .ok (v, b.skip w.length) := by
  have hlen : d.length = pre.length + (w.length + post.length) := by rw [hd]; simp
  refine hr b (by rw [ht]; simp only [maxPacketLen]; omega) ?_
  rw [hlen, memRead_split, memRead_split, hd] at hb
  have h1 := (List.append_inj hb (MsgStorage.length_memRead ..)).2
  have h2 := (List.append_inj h1 (MsgStorage.length_memRead ..)).1
  rw [ht]
  rw [Nat.zero_add] at h2
  exact h2

theorem chunk_header (x y z : UInt8) (id : UInt32) (body : List UInt8) (h : body.length ≤ 4084) : chunk [x, y, z] id body =
    wire (⟨(x, y, z), 0x46, UInt32.ofNat (body.length + 12), id⟩ : UaMessageHeader) ++ body := by
  have e : wire (⟨(x, y, z), 0x46, UInt32.ofNat (body.length + 12), id⟩ : UaMessageHeader) =
      [x, y, z, 0x46] ++ (leBytes 4 (body.length + 12) ++ leBytes 4 id.toNat) := by
    show (wire x ++ (wire y ++ wire z)) ++ (wire (0x46 : UInt8) ++ (leBytes 4 (UInt32.ofNat (body.length + 12)).toNat ++
      leBytes 4 id.toNat)) = _
    rw [wire_u8, wire_u8, wire_u8, wire_u8, UInt32.toNat_ofNat_of_lt' (by simp only [UInt32.size]; omega)]
    rfl
  rw [e]
  unfold chunk
  simp

theorem isChunk_chunk (x y z : UInt8) (id : UInt32) (body : List UInt8) (h : body.length ≤ 4084) : IsChunk (chunk [x, y, z] id body) := by
  have hl : (chunk [x, y, z] id body).length = body.length + 12 := by
    unfold chunk
    simp only [List.length_append, List.length_cons, List.length_nil, MsgStorage.length_leBytes]
    omega
  refine ⟨by omega, ?_⟩
  rw [hl]
  unfold chunk sizeField
  simp only [leBytes, List.cons_append, List.nil_append, List.getD_cons_succ, List.getD_cons_zero]
  simp only [UInt8.toNat_ofNat']
  omega

theorem openRsp_sent (q : Peer) (hl : q.conn.link = true) (ho : q.conn.opened = true) (hw : e.env.writes = true) :
    ∃ ans, Channel.AnswersOpen ans q.id e.token q.tx q.reqId 0 q.lifetime ∧ sendOpenRsp e q = (.ok true, { q with
      conn := { q.conn with log := q.conn.log ++ [.sent (chunk opn q.id ans)] }, token := e.token, tx := q.tx + 1,
      log := q.log ++ [.issued e.token, .sent (chunk opn q.id ans) true] }) := by
  refine ⟨openAnswer (cenv e) q.id e.token q.tx q.reqId 0 q.lifetime, ?_, ?_⟩
  · exact ⟨{ (Ua.init : UaSecurityHeader) with securityPolicyUri := ⟨Channel.policyNone⟩ },
      Channel.openRsp (cenv e) q.id e.token 0 q.lifetime, by unfold openAnswer; rfl, rfl, rfl, ⟨rfl, rfl, rfl, rfl⟩, rfl, rfl, rfl, rfl⟩
  · unfold sendOpenRsp
    rw [bind_ok (show SM.modify _ q = (.ok (), { q with token := e.token }) from rfl),
      bind_ok (show act _ _ = (.ok (), { q with token := e.token, log := q.log ++ [.issued e.token] }) from rfl),
      bind_ok (show SM.get _ = (.ok _, _) from rfl), bind_ok (show SM.modify _ _ = (.ok (), _) from rfl)]
    have hf : frame garbage (openRspEnc e q.id e.token q.tx q.reqId q.lifetime) =
        .ok (chunk opn q.id (openAnswer (cenv e) q.id e.token q.tx q.reqId 0 q.lifetime)) :=
      frame_fits (open_writes e q.id e.token q.tx q.reqId q.lifetime) (by rw [Channel.openAnswer_length]; omega)
    show (lift (frame garbage (openRspEnc e q.id e.token q.tx q.reqId q.lifetime)) >>= _) _ = _
    rw [bind_ok (lift_ok hf _)]
    have hsend : ∀ (r : Peer) (x : List UInt8), r.conn = q.conn → transmit e x r = (.ok .done, { r with
        conn := { q.conn with log := q.conn.log ++ [.sent x] }, log := r.log ++ [.sent x true] }) := by
      intro r x hr
      have h1 : Uscada.Ua.send e.env x r.conn = (.ok .done, { q.conn with log := q.conn.log ++ [.sent x] }) := by
        unfold Uscada.Ua.send
        rw [hr, if_pos hl, if_pos (by rw [ho, hw]; rfl)]
      have h2 : onConn (Uscada.Ua.send e.env x) r = (.ok .done, { r with
          conn := { q.conn with log := q.conn.log ++ [.sent x] } }) := by
        unfold onConn
        rw [h1]
      unfold transmit
      rw [bind_ok h2]
      rfl
    rw [bind_ok (hsend { q with token := e.token, tx := q.tx + 1, log := q.log ++ [.issued e.token] } _ rfl)]
    simp only [List.append_assoc, List.cons_append, List.nil_append]
    rfl

theorem life_live (l : List PAct) (s : Life) (h : life l = some s) : live l = decide (s ≠ .idle) := by
  have gen : ∀ (l : List PAct) (o : Option Life) (b : Bool), (∀ s, o = some s → b = decide (s ≠ .idle)) → ∀ s,
      l.foldl (fun o a => o.bind (·.next a)) o = some s → l.foldl (fun b a => match a with
        | .opening _ => true
        | .note .closed => false
        | .note .error => false
        | _ => b) b = decide (s ≠ .idle) := by
    intro l
    induction l with
    | nil => exact fun o b h s hs => h s hs
    | cons a l ih =>
      intro o b h s hs
      refine ih _ _ (fun s' hs' => ?_) s hs
      rcases o with _ | s0
      · cases hs'
      · have h0 := h s0 rfl
        have hs' : s0.next a = some s' := hs'
        cases a with
        | note n => cases n <;> cases s0 <;> simp [Life.next] at hs' <;> subst hs' <;> simp_all
        | _ => cases s0 <;> simp [Life.next] at hs' <;> subst hs' <;> simp_all
  exact gen l _ _ (fun s hs => by injection hs with hs; subst hs; rfl) s h

/-- An open request is taken in and answered. -/
theorem onOpenReq_run (q : Peer) (sec : UaSecurityHeader) (seq : UaSequenceHeader) (req : Cont UaOpenSecureChannelReq 446)
    (h1 : Wire.ok sec) (h2 : Wire.ok req) (hdr : UaMessageHeader) (hh : Wire.ok hdr) {d : List UInt8}
    (hd : d = wire hdr ++ (wire sec ++ (wire seq ++ wire req))) (hlen : d.length ≤ 4096)
    (ht : q.conn.rx.tail = 0) (hb : memRead q.conn.rx.packet 0 d.length = d) (hl : q.conn.link = true)
    (ho : q.conn.opened = true) (hw : e.env.writes = true) : ∃ ans b, Channel.AnswersOpen ans q.id e.token q.tx seq.requestId 0 req.msg.requestLifetime ∧
      onOpenReq e q = (.ok (), { q with
        conn := { q.conn with rx := b, log := q.conn.log ++ [.sent (chunk opn q.id ans)] }, st := .established,
        rxSeq := seq.sequenceNumber, reqId := seq.requestId, lifetime := req.msg.requestLifetime, token := e.token,
        tx := q.tx + 1, log := q.log ++ [.moved seq.sequenceNumber seq.requestId, .issued e.token, .sent (chunk opn q.id ans) true] }) := by
  let b1 := q.conn.rx.skip (wire hdr).length
  let b2 := b1.skip (wire sec).length
  let b3 := b2.skip (wire seq).length
  let b4 := b3.skip (wire req).length
  have r1 : dec (Ua.init : UaMessageHeader) q.conn.rx = .ok (hdr, b1) :=
    reads_part (pre := []) (post := wire sec ++ (wire seq ++ wire req)) (Lawful.reads hdr hh) hb hd ht hlen
  have r2 : dec (Ua.init : UaSecurityHeader) b1 = .ok (sec, b2) :=
    reads_part (b := b1) (pre := wire hdr) (post := wire seq ++ wire req) (Lawful.reads sec h1) hb hd
      (by show q.conn.rx.tail + _ = _; omega) hlen
  have r3 : dec (Ua.init : UaSequenceHeader) b2 = .ok (seq, b3) :=
    reads_part (b := b2) (pre := wire hdr ++ wire sec) (post := wire req) (Lawful.reads seq ⟨trivial, trivial⟩) hb
      (by rw [hd, List.append_assoc]) (by show q.conn.rx.tail + _ + _ = _; rw [List.length_append]; omega) hlen
  have r4 : dec (Ua.init : Cont UaOpenSecureChannelReq 446) b3 = .ok (req, b4) :=
    reads_part (b := b3) (pre := wire hdr ++ (wire sec ++ wire seq)) (post := []) (Lawful.reads req h2) hb
      (by rw [hd]; simp only [List.append_assoc, List.append_nil]) (by
        show q.conn.rx.tail + _ + _ + _ = _
        simp only [List.length_append]
        omega) hlen
  have hrecv : receiveOpen e q = (.ok (), { q with
      conn := { q.conn with rx := b4 }, rxSeq := seq.sequenceNumber, reqId := seq.requestId, lifetime := req.msg.requestLifetime,
      log := q.log ++ [.moved seq.sequenceNumber seq.requestId] }) := by
    unfold receiveOpen
    rw [bind_ok (decode_ok r1), bind_ok (decode_ok (by exact r2)), bind_ok (decode_ok (by exact r3)),
      bind_ok (show SM.modify _ _ = (.ok (), _) from rfl), bind_ok (show act _ _ = (.ok (), _) from rfl),
      bind_ok (decode_ok (by exact r4))]
    rfl
  obtain ⟨ans, ha, hs⟩ := openRsp_sent (e := e) { q with
      conn := { q.conn with rx := b4 }, rxSeq := seq.sequenceNumber, reqId := seq.requestId, lifetime := req.msg.requestLifetime,
      log := q.log ++ [.moved seq.sequenceNumber seq.requestId] } hl ho hw
  refine ⟨ans, b4, ha, ?_⟩
  unfold onOpenReq
  rw [bind_ok hrecv, bind_ok hs]
  simp only [List.append_assoc, List.cons_append, List.nil_append]
  rfl

/-- C44: every well formed open request is answered: with the next number, the request id, the requested life time, the
channel id and the token drawn for it; from then on the channel expects that token and the number after the one of the request.  `_partial`:
the request handle is not echoed, the answer always says 0; the chunk arrives in one piece on a channel whose connection is
ready, and the link takes the answer. -/
theorem C44_library_open_partial (h : From es p) (hg : ∀ x ∈ es, Good x.1) (hr : Ready p.conn) (sec : UaSecurityHeader)
    (seq : UaSequenceHeader) (req : Cont UaOpenSecureChannelReq 446) (h1 : Wire.ok sec) (h2 : Wire.ok req) (ch : UInt32)
    {d : List UInt8} (hd : d = chunk opn ch (wire sec ++ (wire seq ++ wire req)))
    (hl : (wire sec ++ (wire seq ++ wire req)).length ≤ 4084) (hx : e.env.rx = .ok d) (hw : e.env.writes = true) :
    ∃ p' id tx ans, p.next e .linkData = .ok p' ∧ p'.log = p.log ++ [.got d, .moved seq.sequenceNumber seq.requestId, .issued e.token,
        .sent (chunk opn id ans) true] ∧ chanId p.log = some id ∧
      Channel.AnswersOpen ans id e.token tx seq.requestId 0 req.msg.requestLifetime ∧ Ready p'.conn ∧
      window p'.log = some ⟨some e.token, seq.sequenceNumber, seq.requestId, false⟩ ∧ tx = UInt32.ofNat (count p.log + 1) := by
  have hc : IsChunk d := by rw [hd]; exact isChunk_chunk _ _ _ _ _ hl
  have hdl : d.length ≤ 4096 := by
    rw [hd, show opn = [0x4F, 0x50, 0x4E] from rfl, chunk_header _ _ _ _ _ hl, List.length_append]
    have : (wire (⟨(0x4F, 0x50, 0x4E), 0x46, UInt32.ofNat ((wire sec ++ (wire seq ++ wire req)).length + 12), ch⟩ : UaMessageHeader)).length = 12 := rfl
    omega
  obtain ⟨b, hb, hbytes, hev⟩ := arrives (p := p) hr hc hdl hx
  have hid := (from_pinv h).base.id
  obtain ⟨s, cs, l, hpair, hh⟩ := from_ok h hg
  have hcs : cs = .connected := by rw [← hh.conn.1]; exact hr.st
  subst hcs
  have hlive : live p.log = true := by
    rw [life_live _ _ hh.life]
    cases hpair <;> rfl
  have hmem : memRead b.packet 0 d.length = d := by
    have hsz : b.head = d.length := by
      rw [← hbytes]
      unfold Buf.bytes
      rw [MsgStorage.length_memRead]
      rfl
    rw [← hsz]
    unfold Buf.bytes at hbytes
    rw [hb] at hbytes
    exact hbytes
  have hopn : typeIs b 0x4F 0x50 0x4E = true := by
    rw [typeIs_take (by
      have : b.size = d.length := by
        rw [← hbytes]
        unfold Buf.bytes
        rw [MsgStorage.length_memRead]
      rw [this]
      exact Nat.le_trans (by decide) hc.1), hbytes]
    refine decide_eq_true ?_
    rw [hd]
    unfold chunk
    rfl
  obtain ⟨ans, b', ha, hrun⟩ := onOpenReq_run (e := e) { p with
      conn := { p.conn with rx := b, log := p.conn.log ++ [.note (.data b.bytes)] }, log := p.log ++ [.got b.bytes] } sec seq req h1 h2
      ⟨(0x4F, 0x50, 0x4E), 0x46, UInt32.ofNat ((wire sec ++ (wire seq ++ wire req)).length + 12), ch⟩
      ⟨⟨trivial, trivial, trivial⟩, trivial, trivial, trivial⟩ (d := d) (by rw [hd]; exact chunk_header _ _ _ _ _ hl) hdl hb hmem
      hr.link hr.opened hw
  refine ⟨{ p with
    conn := { p.conn with rx := b'.reset, log := p.conn.log ++ [.note (.data b.bytes)] ++ [.sent (chunk opn p.id ans)] },
    st := .established, rxSeq := seq.sequenceNumber, reqId := seq.requestId, lifetime := req.msg.requestLifetime, token := e.token,
    tx := p.tx + 1, log := p.log ++ [.got d, .moved seq.sequenceNumber seq.requestId, .issued e.token, .sent (chunk opn p.id ans) true] },
    p.id, p.tx, ans, ?_, rfl, hid hlive, ha, ⟨hr.st, hr.link, hr.opened, rfl, rfl⟩, ?_, (from_pinv h).base.num⟩
  · show settle (event e .linkData p) = _
    rw [hev]
    have hdata : handleData e { p with conn := { p.conn with rx := b, log := p.conn.log ++ [.note (.data b.bytes)] } } =
        onOpenReq e { p with
      conn := { p.conn with rx := b, log := p.conn.log ++ [.note (.data b.bytes)] }, log := p.log ++ [.got b.bytes] } := by
      unfold handleData
      rw [bind_ok (show SM.get _ = (.ok _, _) from rfl), bind_ok (show act _ _ = (.ok (), _) from rfl)]
      simp only [hopn, if_true]
      have hst := hh.st
      cases hpair with
      | waiting => simp only [hst]
      | established => simp only [hst]
    rw [bind_ok (hdata.trans hrun)]
    simp only [hbytes, List.append_assoc, List.cons_append, List.nil_append]
    rfl
  · have : p.log ++ [.got d, .moved seq.sequenceNumber seq.requestId, .issued e.token, .sent (chunk opn p.id ans) true] =
        p.log ++ [.got d] ++ [.moved seq.sequenceNumber seq.requestId] ++ [.issued e.token] ++ [.sent (chunk opn p.id ans) true] := by simp
    show window (p.log ++ _) = _
    rw [this, window_snoc, window_snoc, window_snoc]
    rfl

/-! ## Runs -/

structure View where
  st : PSt
  conn : CSt
  link : Bool
  log : List PAct
deriving DecidableEq, Repr

def observe (es : List (PEnv × Ev)) : Exec View := do
  let p ← (Peer.create garbage 0xCDCDCDCD 0xCDCDCDCD 0xCDCDCDCD 0xCDCDCDCD 0xCDCDCDCD).run es
  pure ⟨p.st, p.conn.st, p.conn.link, p.log⟩

theorem observe_from {es : List (PEnv × Ev)} {v : View} (h : observe es = .ok v) : ∃ p, From es p ∧ p.log = v.log := by
  obtain ⟨p, h1, h2⟩ := Exec.bind_eq_ok.mp h
  injection h2 with h2
  subst h2
  exact ⟨p, ⟨_, _, _, _, _, _, h1⟩, rfl⟩

/-- Channel 5, token 77. -/
def env : PEnv := { env := calmEnv, id := 5, token := 77, now := ⟨5⟩, now2 := ⟨6⟩, stop := 0, react := [] }

/-- A chunk arrives. -/
def arrive (d : List UInt8) : PEnv × Ev := ({ env with env := { calmEnv with rx := .ok d } }, .linkData)

/-- An open request with sequence number 51, request id 9, request handle 4. -/
def openChunk : List UInt8 := chunk opn 0 Channel.openReq

def msgChunk (seq request : UInt32) (x : List UInt8) : List UInt8 := chunk msg 5 (Channel.msg seq request x)

def start : List (PEnv × Ev) := [(env, .user .open), arrive helloFrame, arrive openChunk]

/-- What the runs below have in common. -/
def startLog : List PAct :=
  [.opening 5, .got openChunk, .moved 51 9, .issued 77, .sent (chunk opn 5 (Channel.openAnswer (cenv env) 5 77 1 9 0 3600000)) true]

def talk : List (PEnv × Ev) := start ++ [arrive (msgChunk 52 10 [1, 2, 3]), (env, .user (.send [4, 5]))]

def talkLog : List PAct := startLog ++
  [.got (msgChunk 52 10 [1, 2, 3]), .note (.request ([1, 2, 3] ++ (openChunk.drop 27).take 24)),
   .sent (chunk msg 5 (leBytes 4 77 ++ (leBytes 4 2 ++ (leBytes 4 10 ++ [4, 5])))) true]

def longs (l : List PAct) : Bool := l.all fun a => match a with
  | .got d => decide (24 ≤ d.length)
  | _ => true

theorem longs_of {l : List PAct} (h : longs l = true) : Longs l := fun d hd => by
  simpa using List.all_eq_true.mp h _ hd

/-- `AllOk Fresh` speaks of a request, `AllOk Numbered` and `AllOk Addressed` of two chunks, the second numbered 2. -/
example : ∃ p, From talk p ∧ Longs p.log ∧ live p.log = true ∧ life p.log = some .secured ∧ chanId p.log = some 5 ∧
    window p.log = some ⟨some 77, 52, 10, true⟩ ∧
    (∃ x, .note (.request ([1, 2, 3] ++ x)) ∈ p.log) ∧
    .sent (chunk msg 5 (leBytes 4 77 ++ (leBytes 4 2 ++ (leBytes 4 10 ++ [4, 5])))) true ∈ p.log := by
  obtain ⟨p, hp, hl⟩ := observe_from (es := talk) (v := ⟨.established, .connected, true, talkLog⟩) (by decide +kernel)
  refine ⟨p, hp, ?_⟩
  rw [hl]
  exact ⟨longs_of (by decide +kernel), by decide +kernel, by decide +kernel, by decide +kernel, by decide +kernel,
    ⟨(openChunk.drop 27).take 24, by decide +kernel⟩, by decide +kernel⟩
theorem run_append (es fs : List (PEnv × Ev)) (p : Peer) : p.run (es ++ fs) = p.run es >>= fun q => q.run fs := by
  induction es generalizing p with
  | nil => rfl
  | cons x es ih =>
    show (p.next x.1 x.2 >>= fun q => q.run (es ++ fs)) = (p.next x.1 x.2 >>= fun q => q.run es) >>= fun q => q.run fs
    cases p.next x.1 x.2 with
    | ok q => exact ih q
    | throws => rfl
    | abort => rfl
    | ub => rfl

/-- The premises of `C56_order_partial`, `C56_resources_partial` and `C56_timeout_partial`. -/
example : ∃ p p', From talk p ∧ (∀ x ∈ talk, Good x.1) ∧ Good env ∧ p.next env .timer = .ok p' ∧
    p'.log = talkLog ++ [.note .closed] ∧ p'.conn.link = false := by
  have hg : ∀ x ∈ talk, Good x.1 := by
    have he : ∀ r, Good { env with env := { calmEnv with rx := r } } := fun r => ⟨⟨rfl, rfl, rfl, rfl⟩, by simp [env]⟩
    intro x hx
    simp only [talk, start, List.cons_append, List.nil_append, List.mem_cons, List.not_mem_nil, or_false] at hx
    rcases hx with rfl | rfl | rfl | rfl | rfl
    · exact he _
    · exact he _
    · exact he _
    · exact he _
    · exact he _
  have h1 : observe (talk ++ [(env, .timer)]) = .ok ⟨.init, .init, false, talkLog ++ [.note .closed]⟩ := by decide +kernel
  obtain ⟨q, h2, h3⟩ := Exec.bind_eq_ok.mp h1
  rw [run_append] at h2
  obtain ⟨p, h4, h5⟩ := Exec.bind_eq_ok.mp h2
  obtain ⟨p', h6, h7⟩ := Exec.bind_eq_ok.mp h5
  injection h7 with h7
  subst h7
  injection h3 with h3
  exact ⟨p, p', ⟨_, _, _, _, _, _, h4⟩, hg, ⟨⟨rfl, rfl, rfl, rfl⟩, by simp [env]⟩, h6, congrArg View.log h3, congrArg View.link h3⟩

/-! ## Where the code breaks the claims -/

/-- An open request whose audit entry identifier has the length -2; it ends there. -/
def torn : List UInt8 := chunk opn 0 (Channel.openReq.take 89 ++ [0xFE, 0xFF, 0xFF, 0xFF])

/-- The decoder throws at its last byte. -/
def tornEvent : PEnv × Ev := ({ env with stop := 105, env := { calmEnv with rx := .ok torn } }, .linkData)

/-- The message of `talk` once more; the size field counts the 105 bytes left in the buffer. -/
def replayed : List UInt8 := msg ++ 0x46 :: (leBytes 4 132 ++ (leBytes 4 5 ++ Channel.msg 52 10 [1, 2, 3]))

/-- C33: a message that was accepted is accepted a second time, with the same token and the same sequence number; no token
was issued in between.  An open request that cannot be decoded sets the sequence number back. -/
theorem C33_library_replay_violated : ∃ (es : List (PEnv × Ev)) (p : Peer) (l1 l2 : List PAct) (d1 d2 x1 x2 : List UInt8), From es p ∧
    p.log = l1 ++ [.got d1, .note (.request x1)] ++ l2 ++ [.got d2, .note (.request x2)] ∧
    d1.take 3 = msg ∧ d2.take 3 = msg ∧ word d1 12 = word d2 12 ∧ word d1 16 = word d2 16 ∧ (∀ t, .issued t ∉ l2) := by
  obtain ⟨p, hp, hl⟩ := observe_from (es := talk ++ [tornEvent, arrive replayed]) (v := ⟨.established, .connected, true, talkLog ++
    [.got torn, .moved 51 9, .got (replayed ++ List.replicate 105 0xCD), .note (.request ([1, 2, 3] ++ List.replicate 129 0xCD))]⟩)
    (by decide +kernel)
  refine ⟨_, p, startLog, [.sent (chunk msg 5 (leBytes 4 77 ++ (leBytes 4 2 ++ (leBytes 4 10 ++ [4, 5])))) true, .got torn, .moved 51 9],
    msgChunk 52 10 [1, 2, 3], replayed ++ List.replicate 105 0xCD, [1, 2, 3] ++ (openChunk.drop 27).take 24,
    [1, 2, 3] ++ List.replicate 129 0xCD, hp, by rw [hl]; simp only [talkLog, List.append_assoc, List.cons_append, List.nil_append], by decide +kernel, by decide +kernel,
    by decide +kernel, by decide +kernel, ?_⟩
  intro t
  simp

/-- A chunk of no known type is ignored; the buffer keeps its bytes. -/
def stranger : List UInt8 := chunk [0, 0, 0] 5 (leBytes 4 0 ++ (leBytes 4 53 ++ leBytes 4 11))

/-- C33: a message that ends with its token is accepted; the sequence number and the request identifier are taken from what
the buffer held before. -/
theorem C33_library_short_violated : ∃ (es : List (PEnv × Ev)) (p : Peer) (l : List PAct) (d x : List UInt8), From es p ∧
    p.log = l ++ [.got d, .note (.request x)] ∧ d.length = 16 ∧ ¬ Fresh (l ++ [.got d]) (.note (.request x)) := by
  obtain ⟨p, hp, hl⟩ := observe_from (es := talk ++ [arrive stranger, arrive (chunk msg 5 (leBytes 4 77))])
    (v := ⟨.established, .connected, true, talkLog ++ [.got stranger] ++
    [.got (chunk msg 5 (leBytes 4 77)), .note (.request ([1, 2, 3] ++ (openChunk.drop 27).take 13))]⟩) (by decide +kernel)
  refine ⟨_, p, talkLog ++ [.got stranger], _, _, hp, hl, by decide +kernel, ?_⟩
  rintro ⟨w, d, h1, h2, -⟩
  have h3 : window (talkLog ++ [.got stranger] ++ [.got (chunk msg 5 (leBytes 4 77))]) = some ⟨some 77, 52, 10, false⟩ := by decide +kernel
  rw [h3] at h1
  injection h1 with h1
  subst h1
  cases h2

/-- C34: after the channel is opened a second time its chunks go on with the numbers of the first use, and under the token
of the first use, before anything was received. -/
theorem C34_library_reuse_violated : ∃ (es : List (PEnv × Ev)) (p : Peer) (l : List PAct) (id : UInt32) (d : List UInt8), From es p ∧
    p.log = l ++ [.opening id, .sent d true] ∧ txOf d = 3 ∧ word d 12 = 77 ∧ .issued 77 ∈ l := by
  obtain ⟨p, hp, hl⟩ := observe_from (es := talk ++ [(env, .timer), (env, .user .open), (env, .user (.send [1]))])
    (v := ⟨.connecting, .handshake, true, talkLog ++
    [.note .closed, .opening 5, .sent (chunk msg 5 (leBytes 4 77 ++ (leBytes 4 3 ++ (leBytes 4 10 ++ [1])))) true]⟩) (by decide +kernel)
  exact ⟨_, p, talkLog ++ [.note .closed], 5, chunk msg 5 (leBytes 4 77 ++ (leBytes 4 3 ++ (leBytes 4 10 ++ [1]))), hp,
    by rw [hl]; simp only [List.append_assoc, List.cons_append, List.nil_append], by decide +kernel, by decide +kernel, by decide +kernel⟩

/-- C34: a chunk the link did not take uses up a number; the peer sees a gap. -/
theorem C34_library_gap_violated : ∃ (es : List (PEnv × Ev)) (p : Peer) (l : List PAct) (d1 d2 d3 : List UInt8), From es p ∧
    p.log = l ++ [.sent d1 true, .sent d2 false, .sent d3 true] ∧ txOf d1 = 1 ∧ txOf d3 = 3 := by
  obtain ⟨p, hp, hl⟩ := observe_from (es := start ++ [({ env with env := { calmEnv with writes := false } }, .user (.send [1])),
    (env, .user (.send [1]))]) (v := ⟨.established, .connected, true, startLog ++
    [.sent (chunk msg 5 (leBytes 4 77 ++ (leBytes 4 2 ++ (leBytes 4 9 ++ [1])))) false,
     .sent (chunk msg 5 (leBytes 4 77 ++ (leBytes 4 3 ++ (leBytes 4 9 ++ [1])))) true]⟩) (by decide +kernel)
  exact ⟨_, p, [.opening 5, .got openChunk, .moved 51 9, .issued 77],
    chunk opn 5 (Channel.openAnswer (cenv env) 5 77 1 9 0 3600000), chunk msg 5 (leBytes 4 77 ++ (leBytes 4 2 ++ (leBytes 4 9 ++ [1]))),
    chunk msg 5 (leBytes 4 77 ++ (leBytes 4 3 ++ (leBytes 4 9 ++ [1]))), hp,
    by rw [hl]; simp only [startLog, List.cons_append, List.nil_append], by decide +kernel, by decide +kernel⟩

/-- C44: an open request with the request handle 4 is answered with the request handle 0. -/
theorem C44_library_handle_violated : ∃ (es : List (PEnv × Ev)) (p : Peer) (sec : UaSecurityHeader) (seq : UaSequenceHeader)
    (req : Cont UaOpenSecureChannelReq 446) (d : List UInt8), From es p ∧ req.msg.requestHdr.requestHandle = 4 ∧
    .got (chunk opn 0 (wire sec ++ (wire seq ++ wire req))) ∈ p.log ∧ .sent d true ∈ p.log ∧
    d = chunk opn 5 (Channel.openAnswer (cenv env) 5 77 1 9 0 3600000) := by
  obtain ⟨p, hp, hl⟩ := observe_from (es := talk) (v := ⟨.established, .connected, true, talkLog⟩) (by decide +kernel)
  exact ⟨_, p, { (Ua.init : UaSecurityHeader) with securityPolicyUri := ⟨Channel.policyNone⟩ }, ⟨51, 9⟩,
    Cont.make 446 { (Ua.init : UaOpenSecureChannelReq) with
      requestHdr := { (Ua.init : UaRequestHeader) with requestHandle := 4 }, requestLifetime := 3600000 },
    _, hp, rfl, by rw [hl]; decide +kernel, by rw [hl]; decide +kernel, rfl⟩

/-- C46: the message carries three bytes, the user is handed 27; the other 24 belong to the chunk before. -/
theorem C46_library_payload_violated : ∃ (es : List (PEnv × Ev)) (p : Peer) (l : List PAct) (d x : List UInt8), From es p ∧
    p.log = l ++ [.got d, .note (.request x)] ∧ IsChunk d ∧ x ≠ d.drop 24 ∧ x.length = d.length := by
  obtain ⟨p, hp, hl⟩ := observe_from (es := start ++ [arrive (msgChunk 52 10 [1, 2, 3])]) (v := ⟨.established, .connected, true, startLog ++
    [.got (msgChunk 52 10 [1, 2, 3]), .note (.request ([1, 2, 3] ++ (openChunk.drop 27).take 24))]⟩) (by decide +kernel)
  exact ⟨_, p, startLog, _, _, hp, hl, by decide +kernel, by decide +kernel, by decide +kernel⟩

/-- C56: a user that throws when told of the end is told of it again. -/
theorem C56_throwing_user_violated : ∃ (es : List (PEnv × Ev)) (p : Peer), From es p ∧ life p.log = none := by
  obtain ⟨p, hp, hl⟩ := observe_from (es := talk ++ [({ env with react := [.fail] }, .timer), (env, .timer)])
    (v := ⟨.init, .init, false, talkLog ++ [.note .closed, .note .closed]⟩) (by decide +kernel)
  exact ⟨_, p, hp, by rw [hl]; decide +kernel⟩

/-- A timer cannot be started. -/
def starved : PEnv := { env with env := { calmEnv with starts := false } }

/-- C56: when the timer cannot be started, `open` throws and leaves the link in the connection; the channel is idle and the
user is not told when the connection ends. -/
theorem C56_timer_exhausted_violated : ∃ (es : List (PEnv × Ev)) (e : PEnv) (p p' : Peer), From es p ∧ p.st = .init ∧ p.conn.link = true ∧
    p.next e .timer = .ok p' ∧ p'.conn.st = .init ∧ (∀ n, .note n ∉ p'.log) ∧ .opening e.id ∈ p'.log := by
  have h1 : observe [(starved, .user .open), (env, .timer)] = .ok ⟨.init, .init, false, [.opening 5]⟩ := by decide +kernel
  obtain ⟨q, h2, h3⟩ := Exec.bind_eq_ok.mp h1
  obtain ⟨p, h4, h5⟩ := Exec.bind_eq_ok.mp h2
  obtain ⟨p', h6, h7⟩ := Exec.bind_eq_ok.mp h5
  injection h7 with h7
  subst h7
  injection h3 with h3
  have h8 : observe [(starved, .user .open)] = .ok ⟨.init, .handshake, true, [.opening 5]⟩ := by decide +kernel
  have h9 : (Peer.create garbage 0xCDCDCDCD 0xCDCDCDCD 0xCDCDCDCD 0xCDCDCDCD 0xCDCDCDCD).run [(starved, .user .open)] = .ok p := by
    show (Peer.next _ _ _ >>= fun q : Peer => q.run []) = _
    rw [h4]
    rfl
  unfold observe at h8
  rw [h9] at h8
  injection h8 with h8
  refine ⟨_, env, p, p', ⟨_, _, _, _, _, _, h9⟩, congrArg View.st h8, congrArg View.link h8, h6, congrArg View.conn h3, ?_, ?_⟩
  · intro n
    have : p'.log = [.opening 5] := congrArg View.log h3
    simp [this]
  · have : p'.log = [.opening 5] := congrArg View.log h3
    simp [this, env]

/-- C56: `send` before the first `open` writes through a null pointer, whatever is sent. -/
theorem C56_send_before_open_violated (m : Mem) (id rxSeq reqId lifetime token : UInt32) (e : PEnv) (data : List UInt8) :
    (Peer.create m id rxSeq reqId lifetime token).next e (.user (.send data)) = .ub := by
  show settle ((SM.get >>= _) (Peer.create m id rxSeq reqId lifetime token)) = _
  generalize hq : Peer.create m id rxSeq reqId lifetime token = q
  rw [bind_ok (show SM.get q = (.ok q, q) from rfl), bind_ok (show SM.modify _ q = (.ok (), { q with tx := q.tx + 1 }) from rfl)]
  rcases frame_chunk (send_writes q.id q.token q.tx q.reqId data) with ⟨hf, _⟩ | hf
  · rw [bind_ok (lift_ok hf _)]
    subst hq
    rfl
  · rw [bind_run, hf]
    rfl

end Uscada.Ua.Peer
