import Verif.UaPeerTalk
import Verif.UaHandshake
import Verif.UaLimits
import Verif.UaLifetime

/-!
# C95, C100, C101, C102 for the library (common/ua/protocols)

protocols/connection/ServerConnection.cpp:78-137: every Hello is answered with the same Acknowledge.  protocols/secure/OpcUaServerSecureChannel.cpp:26-44:
a chunk of unknown type is dropped; 165-188, 203-232: the life time is repeated in the answer and never used.
-/

namespace Uscada.Ua

open CM
open Transport (HoldsChunk acknowledge announced Agreed hello lettered)

variable {e : Env}

/-- C95: a server connection that waits answers every Hello that the standard allows, however it is cut, with an Acknowledge and reports success.
It fits the buffer, and at most 1024 bytes come before the last piece. -/
theorem C95_greets_partial {c : Conn} (hc : Waits c) (he : e.starts = true) (hw : e.writes = true) (hn : e.onConnected = []) {v : HelloMessage} {body : List UInt8}
    (hs : std false v body) (hlen : body.length ≤ 4088) {ps : List (List UInt8)} {last : List UInt8} (hf : ps.flatten ++ last = hello body) (hl : last ≠ [])
    (h1024 : ps.flatten.length ≤ 1024) :
    ∃ c', c.run .server (arrivals e (ps ++ [last])) = .ok c' ∧ Ready c' ∧ c'.log = c.log ++ [.sent (acknowledge announced), .note .connected] := by
  have hll : (hello body).length = body.length + 8 := Transport.lettered_length rfl body
  obtain ⟨b, hb, hbt, hbb⟩ := C30_framing_partial c.rx ps last hc.tail hc.head (by rw [hf]; exact Transport.lettered_chunk rfl hlen) hl h1024
    (by rw [hf, hll]; omega)
  obtain ⟨b0, p, h1, h2⟩ := shake_feed (r := .server) (e := e) _ _ c b hc.st hc.link hc.opened hb
  have hsize : b.size = (hello body).length := by
    rw [← hf, ← hbb]
    unfold Buf.bytes
    rw [MsgStorage.length_memRead]
  have hholds : HoldsChunk b (hello body) := by
    refine ⟨hbt, ?_⟩
    rw [hf] at hbb
    unfold Buf.bytes at hbb
    rw [hbt] at hbb
    exact hbb
  obtain ⟨b', hd⟩ := Transport.lettered_decodes (b := b) (a := [0x48, 0x45, 0x4C, 0x46]) rfl hs hlen hholds
  have hh : isHandshake .server b = true := letters_isHandshake (by rw [hbb, hf, hll]; omega) (by rw [hbb, hf]; rfl)
  have hto := toConnected_calm (r := .server) (e := { e with rx := .ok p }) (c := { c with rx := b', log := c.log ++ [.sent ackFrame] }) hc.st hc.timer he hn
  simp only [hc.st, hc.link, hc.opened, hw] at hto
  refine ⟨{ c with st := .connected, armed := true, rx := b'.reset, log := c.log ++ [.sent ackFrame] ++ [.note .connected] }, ?_,
    ⟨rfl, hc.link, hc.opened, rfl, rfl⟩, ?_⟩
  · rw [h2]
    unfold Conn.next
    simp only [event, onData, bind_run, CM.get, andThen, hc.st, receiveHandshake, receiveRx, hc.link, hc.opened, if_true, h1, hh, decodeHandshake, hd, pure_run,
      onHandshake, sendAcknowledge_eq, send, hw, Bool.and_self]
    rw [hto]
  · show c.log ++ _ ++ _ = _
    rw [List.append_assoc, ← Transport.ackFrame_eq]
    rfl

/-- Against C100, in the library: each Hello that announces a smaller buffer than 65536 bytes in either direction is answered with limits that it does not
allow, and success is reported. -/
theorem C100_library_violated {c : Conn} (hc : Waits c) (he : e.starts = true) (hw : e.writes = true) (hn : e.onConnected = []) {v : HelloMessage}
    {body : List UInt8} (hs : std false v body) (hlen : body.length ≤ 4088) (hr : v.receiveBufferSize < 65536 ∨ v.sendBufferSize < 65536) :
    ∃ c' a, c.run .server (arrivals e [hello body]) = .ok c' ∧ Ready c' ∧ c'.log = c.log ++ [.sent (acknowledge a), .note .connected] ∧ ¬ Agreed v a := by
  obtain ⟨c', h1, h2, h3⟩ := C95_greets_partial (ps := []) (last := hello body) hc he hw hn hs hlen rfl (by simp [hello, lettered]) (by simp)
  refine ⟨c', announced, h1, h2, h3, ?_⟩
  rintro ⟨h6, h7⟩
  have h6 : (65536 : UInt32) ≤ v.sendBufferSize := h6
  have h7 : (65536 : UInt32) ≤ v.receiveBufferSize := h7
  rw [UInt32.le_iff_toNat_le] at h6 h7
  rw [UInt32.lt_iff_toNat_lt, UInt32.lt_iff_toNat_lt] at hr
  omega

/-- C100, in the library: a Hello with buffers of at least 65536 bytes is answered with limits that it allows. -/
theorem C100_library_partial {c : Conn} (hc : Waits c) (he : e.starts = true) (hw : e.writes = true) (hn : e.onConnected = []) {v : HelloMessage}
    {body : List UInt8} (hs : std false v body) (hlen : body.length ≤ 4088) (hr : 65536 ≤ v.receiveBufferSize) (hsnd : 65536 ≤ v.sendBufferSize) :
    ∃ c' a, c.run .server (arrivals e [hello body]) = .ok c' ∧ Ready c' ∧ c'.log = c.log ++ [.sent (acknowledge a), .note .connected] ∧ Agreed v a := by
  obtain ⟨c', h1, h2, h3⟩ := C95_greets_partial (ps := []) (last := hello body) hc he hw hn hs hlen rfl (by simp [hello, lettered]) (by simp)
  exact ⟨c', announced, h1, h2, h3, hsnd, hr⟩

/-- C95, C100: a connection that waits for its first bytes exists.  It is greeted in three pieces by a client with small buffers. -/
example : ∃ c c' c'' a, (Conn.create garbage).run .server [(calmEnv, .user .accept)] = .ok c ∧
    c.run .server (arrivals calmEnv ([(hello (Wire.wire Transport.modest)).take 3, ((hello (Wire.wire Transport.modest)).drop 3).take 10] ++
      [(hello (Wire.wire Transport.modest)).drop 13])) = .ok c' ∧ c'.log = [.attempt, .sent (acknowledge announced), .note .connected] ∧
    c.run .server (arrivals calmEnv [hello (Wire.wire Transport.modest)]) = .ok c'' ∧ c''.log = [.attempt, .sent (acknowledge a), .note .connected] ∧
    ¬ Agreed Transport.modest a := by
  obtain ⟨c, h1, h2, h3⟩ := shake_accept (c := Conn.create garbage) rfl calmEnv_avail.1
  obtain ⟨c', h4, -, h5⟩ := C95_greets_partial (e := calmEnv) h2 rfl rfl rfl Transport.modest_std (by decide +kernel)
    (ps := [(hello (Wire.wire Transport.modest)).take 3, ((hello (Wire.wire Transport.modest)).drop 3).take 10])
    (last := (hello (Wire.wire Transport.modest)).drop 13) (by decide +kernel) (by decide +kernel) (by decide +kernel)
  obtain ⟨c'', a, h6, -, h7, h8⟩ := C100_library_violated (e := calmEnv) h2 rfl rfl rfl Transport.modest_std (by decide +kernel) (by decide)
  exact ⟨c, c', c'', a, h1, h4, by rw [h5, h3]; rfl, h6, by rw [h7, h3]; rfl, h8⟩

/-- C100: the same connection is greeted by a client with large buffers. -/
example : ∃ c c' a, (Conn.create garbage).run .server [(calmEnv, .user .accept)] = .ok c ∧
    c.run .server (arrivals calmEnv [hello (Wire.wire Transport.lavish)]) = .ok c' ∧ c'.log = [.attempt, .sent (acknowledge a), .note .connected] ∧
    Agreed Transport.lavish a := by
  obtain ⟨c, h1, h2, h3⟩ := shake_accept (c := Conn.create garbage) rfl calmEnv_avail.1
  obtain ⟨c', a, h6, -, h7, h8⟩ := C100_library_partial (e := calmEnv) h2 rfl rfl rfl Transport.lavish_std (by decide +kernel) (by decide) (by decide)
  exact ⟨c, c', a, h1, h6, by rw [h7, h3]; rfl, h8⟩

namespace Peer

open SM

variable {es : List (PEnv × Ev)} {p : Peer} {id : UInt32} {k : Known}

/-- Against C101, in the library: a whole chunk with letters that are none of a secure channel is dropped without a word: nothing is written, nobody is told,
and the connection stays as it is. -/
theorem C101_library_violated (hr : Ready p.conn) (e : PEnv) {d : List UInt8} (hc : IsChunk d) (hn : d.length ≤ 4096) (h1 : d.take 3 ≠ opn)
    (h2 : d.take 3 ≠ clo) (h3 : d.take 3 ≠ msg) : ∃ p', p.next (brings e d) .linkData = .ok p' ∧ p'.log = p.log ++ [.got d] ∧
      p'.conn.log = p.conn.log ++ [.note (.data d)] ∧ p'.st = p.st ∧ Ready p'.conn := by
  obtain ⟨b, hb, hbytes, hev⟩ := arrives (p := p) (e := brings e d) hr hc hn rfl
  have hsize : b.size = d.length := by
    rw [← hbytes]
    unfold Buf.bytes
    rw [MsgStorage.length_memRead]
  have h8 := hc.1
  have hty : ∀ x y z, d.take 3 ≠ [x, y, z] → typeIs b x y z = false := by
    intro x y z h
    rw [typeIs_take (by omega), hbytes]
    exact decide_eq_false h
  refine ⟨{ p with conn := { p.conn with rx := b.reset, log := p.conn.log ++ [.note (.data d)] }, log := p.log ++ [.got d] }, ?_, rfl, rfl, rfl,
    ⟨hr.st, hr.link, hr.opened, rfl, rfl⟩⟩
  show settle (event (brings e d) .linkData p) = _
  rw [hev]
  have hdata : handleData (brings e d) { p with conn := { p.conn with rx := b, log := p.conn.log ++ [.note (.data b.bytes)] } } =
      (.ok (), { p with conn := { p.conn with rx := b, log := p.conn.log ++ [.note (.data d)] }, log := p.log ++ [.got d] }) := by
    unfold handleData
    rw [bind_ok (show SM.get _ = (.ok _, _) from rfl), bind_ok (show act _ _ = (.ok (), _) from rfl)]
    simp only [hty _ _ _ h1, hty _ _ _ h2, hty _ _ _ h3, Bool.false_eq_true, if_false, hbytes]
    rfl
  rw [bind_ok hdata]
  rfl

/-- Against C102, in the library: the life time that is granted means nothing.  A client opens a channel and asks for whatever life time; the answer grants
it.  Then every conversation goes its way under the same token, however long it is, although every reading of the clock is later than the end of the life
time, which began when the open request was served (`e.now2`). -/
theorem C102_library_violated (hf : From es p) (hg : ∀ x ∈ es, Good x.1) (hr : Ready p.conn) (hl : Longs p.log) {e : PEnv} (he : Good e) (ch : UInt32)
    (sec : UaSecurityHeader) (seq : UaSequenceHeader) (req : Cont UaOpenSecureChannelReq 446) (hx : (Turn.renews ch sec seq req).Fits)
    (ts : List (PEnv × Turn)) (ht : ∀ x ∈ ts, Good x.1 ∧ x.2.Fits) (_hlate : ∀ x ∈ ts, Stack.Expired e.now2 req.msg.requestLifetime x.1.now ∧
      Stack.Expired e.now2 req.msg.requestLifetime x.1.now2) (hren : ∀ x ∈ ts, ∀ c s q r, x.2 ≠ .renews c s q r) :
    ∃ p' id ans l, p.run ((Turn.renews ch sec seq req).event k e :: script (known p e.token seq) ts) = .ok p' ∧ chanId p.log = some id ∧
      Channel.AnswersOpen ans id e.token (UInt32.ofNat (count p.log + 1)) seq.requestId 0 req.msg.requestLifetime ∧
      p'.log = p.log ++ [.got (chunk opn ch (wire sec ++ (wire seq ++ wire req))), .moved seq.sequenceNumber seq.requestId, .issued e.token,
        .sent (chunk opn id ans) true] ++ l ∧ SeenAll id (known p e.token seq) l ts ∧ Speaks p' id (afterAll (known p e.token seq) ts) ∧
      (afterAll (known p e.token seq) ts).token = e.token := by
  obtain ⟨q, id, ans, h1, h2, h3, h4, h5⟩ := opens (k := k) hf hg hr hl he ch sec seq req hx
  obtain ⟨s, l, h6, h7, h8, h9⟩ := C108_talk_partial h5 ts ht
  refine ⟨s, id, ans, l, ?_, h2, h3, by rw [h7, h4], h8, h9, ?_⟩
  · show (p.next ((Turn.renews ch sec seq req).event k e).1 ((Turn.renews ch sec seq req).event k e).2 >>= fun q => q.run (script (known p e.token seq) ts)) = _
    rw [h1]
    exact h6
  · have : ∀ (ts : List (PEnv × Turn)) (k : Known), (∀ x ∈ ts, ∀ c s q r, x.2 ≠ .renews c s q r) → (afterAll k ts).token = k.token := by
      intro ts
      induction ts with
      | nil => intro k _; rfl
      | cons x ts ih =>
        intro k h
        obtain ⟨f, t⟩ := x
        show (afterAll (t.after k f) ts).token = _
        rw [ih _ fun y hy => h y (by simp [hy])]
        cases t with
        | asks _ _ _ _ => rfl
        | says _ => rfl
        | renews c s q r => exact absurd rfl (h (f, .renews c s q r) (by simp) c s q r)
    exact this ts _ hren

/-- The connection of `greeted` after the greeting. -/
theorem greeted_ready : ∃ p, From greeted p ∧ (∀ x ∈ greeted, Good x.1) ∧ p.log = [.opening 5] ∧ Ready p.conn ∧ p.st = .waiting := by
  have hlook : look greeted = .ok (⟨.waiting, .connected, true, [.opening 5]⟩, true, 0, 0) := by decide +kernel
  obtain ⟨p, h1, h2⟩ := Exec.bind_eq_ok.mp hlook
  injection h2 with h2
  have hv := congrArg Prod.fst h2
  refine ⟨p, ⟨_, _, _, _, _, _, h1⟩, ?_, congrArg View.log hv, ⟨congrArg View.conn hv, congrArg View.link hv, congrArg (fun x => x.2.1) h2,
    congrArg (fun x => x.2.2.1) h2, congrArg (fun x => x.2.2.2) h2⟩, congrArg View.st hv⟩
  intro x hx
  simp only [greeted, List.mem_cons, List.not_mem_nil, or_false] at hx
  rcases hx with rfl | rfl
  · exact good_env _
  · exact good_env _

/-- C101: an empty message of the type `XYZ`. -/
example : ∃ p p', From greeted p ∧ p.next (brings env [88, 89, 90, 70, 8, 0, 0, 0]) .linkData = .ok p' ∧
    p'.log = [.opening 5, .got [88, 89, 90, 70, 8, 0, 0, 0]] ∧ p'.st = .waiting ∧ p'.conn.link = true := by
  obtain ⟨p, h, -, hl, hr, hs⟩ := greeted_ready
  obtain ⟨p', h1, h2, -, h3, h4⟩ := C101_library_violated hr env (d := [88, 89, 90, 70, 8, 0, 0, 0]) (by decide) (by decide) (by decide) (by decide) (by decide)
  exact ⟨p, p', h, h1, by rw [h2, hl]; rfl, by rw [h3, hs], h4.link⟩

/-- Two hours after the open request of `chat`. -/
def late : PEnv := { env with now := ⟨env.now2.val + 72000000000⟩, now2 := ⟨env.now2.val + 72000000000⟩ }

/-- C102: the life time of one hour is over; two requests are answered all the same, with the token of the open request. -/
example : ∃ p p' id, From greeted p ∧ p.run (arrive openChunk :: script (known p 77 ⟨51, 9⟩) [(late, .asks 5 10 [1] [[2]]), (late, .asks 5 11 [3] [[4]])]) = .ok p' ∧
    Stack.Expired env.now2 3600000 late.now ∧ Speaks p' id ⟨77, 53, 11, 4⟩ := by
  obtain ⟨p, h, hg, hl, hr, -⟩ := greeted_ready
  have hk : afterAll (known p 77 ⟨51, 9⟩) [(late, .asks 5 10 [1] [[2]]), (late, .asks 5 11 [3] [[4]])] = ⟨77, 53, 11, 4⟩ := by
    unfold known
    rw [hl]
    decide +kernel
  obtain ⟨p', id, ans, l, h1, -, -, -, -, h2, -⟩ := C102_library_violated (k := ⟨0, 0, 0, 0⟩) h hg hr (by rw [hl]; exact longs_of (by decide +kernel)) (e := env)
    (good_env _) 0 { (Ua.init : UaSecurityHeader) with securityPolicyUri := ⟨Channel.policyNone⟩ } ⟨51, 9⟩ (Cont.make 446
      { (Ua.init : UaOpenSecureChannelReq) with requestHdr := { (Ua.init : UaRequestHeader) with requestHandle := 4 }, requestLifetime := 3600000 })
    (chat_fits _ (List.mem_cons_of_mem _ (List.mem_cons_of_mem _ List.mem_cons_self))).2 [(late, .asks 5 10 [1] [[2]]), (late, .asks 5 11 [3] [[4]])]
    (by
      intro x hx
      simp only [List.mem_cons, List.not_mem_nil, or_false] at hx
      rcases hx with rfl | rfl
      · exact ⟨⟨⟨rfl, rfl, rfl, rfl⟩, by simp [late, env]⟩, by simp [Turn.Fits]⟩
      · exact ⟨⟨⟨rfl, rfl, rfl, rfl⟩, by simp [late, env]⟩, by simp [Turn.Fits]⟩)
    (by
      intro x hx
      simp only [List.mem_cons, List.not_mem_nil, or_false] at hx
      rcases hx with rfl | rfl <;> decide +kernel)
    (by
      intro x hx
      simp only [List.mem_cons, List.not_mem_nil, or_false] at hx
      rcases hx with rfl | rfl <;> simp)
  exact ⟨p, p', id, h, h1, by decide +kernel, by rw [← hk]; exact h2⟩

end Peer

end Uscada.Ua
