import Verif.UaPeerAnswers
import Verif.UaWrap

/-!
# C105: whose chunks the library's server channel takes

common/ua/protocols/secure/OpcUaServerSecureChannel.cpp:83-163: neither the channel identifier nor the chunk type of a received chunk is looked at.
-/

namespace Uscada.Ua.Peer

open SM Wire
open Channel (word MayFollow)

variable {es : List (PEnv × Ev)} {p : Peer} {e : PEnv}

/-- A chunk of the kind `f` ('F' final, 'C' intermediate, 'A' abort) for the channel `id`. -/
def part (ty : List UInt8) (f : UInt8) (id : UInt32) (body : List UInt8) : List UInt8 :=
  ty ++ f :: (leBytes 4 (body.length + 12) ++ (leBytes 4 id.toNat ++ body))

/-- Token, number and request of a message. -/
def headed (token seq request : UInt32) (x : List UInt8) : List UInt8 :=
  leBytes 4 token.toNat ++ (leBytes 4 seq.toNat ++ (leBytes 4 request.toNat ++ x))

/-- A chunk is taken as the standard wants it: it is the only one of its message and addressed to this channel. -/
def Mine (l : List PAct) (d : List UInt8) : Prop := d.getD 3 0 = 0x46 ∧ chanId l = some (word d 8)

theorem part_length (f : UInt8) (id : UInt32) (body : List UInt8) : (part msg f id body).length = body.length + 12 := by
  simp [part, msg]
  omega

theorem headed_length (token seq request : UInt32) (x : List UInt8) : (headed token seq request x).length = x.length + 12 := by
  simp [headed]
  omega

theorem part_isChunk (f : UInt8) (id : UInt32) (body : List UInt8) (h : body.length ≤ 4084) : IsChunk (part msg f id body) := by
  refine ⟨by rw [part_length]; omega, ?_⟩
  rw [part_length]
  unfold sizeField part msg
  simp only [le4, List.cons_append, List.nil_append, List.getD_cons_succ, List.getD_cons_zero, UInt8.toNat_ofNat']
  omega

theorem part_split (f : UInt8) (id : UInt32) (body : List UInt8) :
    part msg f id body = ([0x4D, 0x53, 0x47, f] ++ leBytes 4 (body.length + 12)) ++ (leBytes 4 id.toNat ++ body) := by
  simp [part, msg]

theorem word_id (f : UInt8) (id : UInt32) (body : List UInt8) : word (part msg f id body) 8 = id := by
  rw [part_split]
  show word _ (8 + 0) = _
  rw [Channel.word_skip _ _ 8 0 (by simp), Channel.word_leBytes]

theorem word_body (f : UInt8) (id : UInt32) (body : List UInt8) (i : Nat) : word (part msg f id body) (12 + i) = word body i := by
  rw [part_split, ← List.append_assoc]
  exact Channel.word_skip _ _ 12 i (by simp)

/-- Against C105: a chunk with the token and the next number is taken for a whole message of this channel, whatever channel it names and
whether it is the last part of the message, one before it, or one that takes the message back. -/
theorem C105_foreign_violated (h : From es p) (hl : Longs p.log) (hv : live p.log = true) {w : Window} {t : UInt32}
    (hw : window p.log = some w) (ht : w.token = some t) (hr : Ready p.conn) (f : UInt8) (id request : UInt32) (x : List UInt8)
    (hx : x.length ≤ 4072) {d : List UInt8} (hd : d = part msg f id (headed t (w.seq + 1) request x))
    (hrx : e.env.rx = .ok d) (he : e.react = []) (hn : f ≠ 0x46 ∨ chanId p.log ≠ some id) :
    ¬ Mine p.log d ∧ ∃ p' pay, p.next e .linkData = .ok p' ∧ p'.log = p.log ++ [.got d, .note (.request pay)] ∧ pay.take x.length = x := by
  have hbl := headed_length t (w.seq + 1) request x
  have hlen : d.length = x.length + 24 := by rw [hd, part_length, hbl]
  refine ⟨?_, ?_⟩
  · rintro ⟨h1, h2⟩
    rw [hd, word_id] at h2
    rw [hd] at h1
    rcases hn with hn | hn
    · exact hn h1
    · exact hn h2
  · obtain ⟨p', pay, h1, h2, h3, -⟩ := C33_library_accepts h hl hv hw ht hr (d := d)
      (by rw [hd]; exact part_isChunk _ _ _ (by omega)) (by omega) (by omega) (by rw [hd]; rfl)
      (by rw [hd]; show word _ (12 + 0) = _; rw [word_body]; exact Channel.word_leBytes _ _)
      (by rw [hd]; show word _ (12 + 4) = _; rw [word_body]; exact Channel.word4 _ _ _) hrx he
    refine ⟨p', pay, h1, h2, ?_⟩
    rw [hlen, Nat.add_sub_cancel] at h3
    rw [h3, hd, part_split]
    simp [headed, le4]

/-- Against C105: on an open channel an open request for any channel, with any number, is taken for one of this channel: it is answered, and from then
on the numbers count from there. -/
theorem C105_renewal_violated (h : From es p) (hg : ∀ x ∈ es, Good x.1) (hr : Ready p.conn)
    (sec : UaSecurityHeader) (seq : UaSequenceHeader) (req : Cont UaOpenSecureChannelReq 446) (h1 : Wire.ok sec) (h2 : Wire.ok req) (id : UInt32)
    {d : List UInt8} (hd : d = chunk opn id (wire sec ++ (wire seq ++ wire req)))
    (hl : (wire sec ++ (wire seq ++ wire req)).length ≤ 4084) (hx : e.env.rx = .ok d) (hwr : e.env.writes = true) :
    ∃ p' own ans, p.next e .linkData = .ok p' ∧ chanId p.log = some own ∧ .sent (chunk opn own ans) true ∈ p'.log ∧
      window p'.log = some ⟨some e.token, seq.sequenceNumber, seq.requestId, false⟩ := by
  obtain ⟨p', own, tx, ans, h3, h4, h5, -, -, h6, -⟩ := C44_library_open_partial h hg hr sec seq req h1 h2 id hd hl hx hwr
  exact ⟨p', own, ans, h3, h5, by rw [h4]; simp, h6⟩

/-- C105 (`_partial`: only the token and the number are looked at, see `C105_foreign_violated`): a message with another token or another number is
never passed on: the user is told of an error and the connection is given back. -/
theorem C105_refused_partial (h : From es p) (hg : ∀ x ∈ es, Good x.1) (hl : Longs p.log) {w : Window} {t : UInt32}
    (hv : live p.log = true) (hw : window p.log = some w) (ht : w.token = some t) (hr : Ready p.conn) {d : List UInt8} (hc : IsChunk d)
    (h24 : 24 ≤ d.length) (h4096 : d.length ≤ 4096) (hm : d.take 3 = msg) (hbad : word d 12 ≠ t ∨ word d 16 ≠ w.seq + 1)
    (hx : e.env.rx = .ok d) (he : e.react = []) : ∃ p', p.next e .linkData = .ok p' ∧
      p'.log = p.log ++ [.got d, .note .error] ∧ p'.conn.st = .init ∧ p'.conn.link = false ∧ p'.conn.timer = false := by
  have hi := from_pinv h
  have hs : p.st = .established := by
    rcases Decidable.em (p.st = .established) with h1 | h1
    · exact h1
    · have := hi.tame h1 hl hv w hw
      rw [ht] at this
      cases this
  obtain ⟨b0, hb0⟩ := hi.win hs hl
  rw [hw] at hb0
  injection hb0 with hb0
  subst hb0
  injection ht with ht
  obtain ⟨s, cs, l, hpair, hh⟩ := from_ok h hg
  have htimer : p.conn.timer = true := hh.conn.2.timer.mpr (by rw [hr.st]; decide)
  obtain ⟨b, hb, hbytes, hev⟩ := arrives (p := p) hr hc h4096 hx
  have hsize : b.size = d.length := by
    rw [← hbytes]
    unfold Buf.bytes
    rw [MsgStorage.length_memRead]
  have hmsg : typeIs b 0x4D 0x53 0x47 = true := by
    rw [typeIs_take (by omega), hbytes]
    exact decide_eq_true hm
  have hopn : typeIs b 0x4F 0x50 0x4E = false := by
    simp only [typeIs, byteIs, Bool.and_eq_true, beq_iff_eq] at hmsg
    simp only [typeIs, byteIs, hmsg.1.1]
    rfl
  have hclo : typeIs b 0x43 0x4C 0x4F = false := by
    simp only [typeIs, byteIs, Bool.and_eq_true, beq_iff_eq] at hmsg
    simp only [typeIs, byteIs, hmsg.1.1]
    rfl
  have hguard : ∀ q : Peer, q.conn.rx = b → q.token = p.token → q.rxSeq = p.rxSeq → ∃ n, receiveGuarded e q = (.ok none, withRx q (b.skip n)) := by
    intro q h1 h2 h3
    rcases guarded_run e q with h4 | ⟨_, h4⟩
    · rw [h1, h2, h3, wordAt_eq (b := b) (by omega), wordAt_eq (b := b) (by omega), hbytes, if_neg (by
        rintro ⟨h5, h6⟩
        rcases hbad with hbad | hbad
        · exact hbad (h5.trans ht)
        · exact hbad h6)] at h4
      split at h4
      · exact ⟨_, h4⟩
      · exact ⟨_, h4⟩
    · rw [h1, hb] at h4
      omega
  obtain ⟨n, hn⟩ := hguard { p with
        conn := { p.conn with rx := b, log := p.conn.log ++ [.note (.data b.bytes)] }, st := .established,
        log := p.log ++ [.got b.bytes] } rfl rfl rfl
  refine ⟨{ p with
    st := .init, conn := { p.conn with st := .init, link := false, opened := false, timer := false, armed := false, rx := (b.skip n).reset, log := p.conn.log ++ [.note (.data b.bytes), .closing] },
    log := p.log ++ [.got d, .note .error] }, ?_, rfl, rfl, rfl, rfl⟩
  show settle (event e .linkData p) = _
  rw [hev]
  have hdata : handleData e { p with conn := { p.conn with rx := b, log := p.conn.log ++ [.note (.data b.bytes)] } } =
      (.ok (), { p with
        st := .init, conn := { p.conn with st := .init, link := false, opened := false, timer := false, armed := false, rx := b.skip n, log := p.conn.log ++ [.note (.data b.bytes), .closing] },
        log := p.log ++ [.got d, .note .error] }) := by
    unfold handleData
    rw [bind_ok (show SM.get _ = (.ok _, _) from rfl), bind_ok (show act _ _ = (.ok (), _) from rfl)]
    simp only [hopn, hclo, hmsg, hs, if_true, Bool.false_eq_true, if_false]
    unfold onMessage
    rw [bind_ok hn]
    show finish e .error _ = _
    have hnote : ∀ q : Peer, notify e .error q = (.ok (), { q with log := q.log ++ [.note .error] }) := by
      intro q
      unfold notify
      rw [bind_ok (show act _ _ = (.ok (), _) from rfl), he]
      rfl
    unfold finish
    rw [bind_ok (hnote _)]
    have hclose : ∀ q : Peer, q.conn.st = .connected → q.conn.link = true → q.conn.timer = true → onConn userClose q =
        (.ok (), { q with conn := { q.conn with st := .init, link := false, opened := false, timer := false, armed := false, log := q.conn.log ++ [.closing] } }) := by
      intro q h1 h2 h3
      obtain ⟨c, _, _, _, _, _, _, _, _⟩ := q
      cases c
      simp only at h1 h2 h3
      subst h1 h2 h3
      rfl
    rw [bind_ok (hclose _ ?_ ?_ ?_)]
    rotate_left
    · exact hr.st
    · exact hr.link
    · exact htimer
    simp only [withRx, hbytes, List.append_assoc, List.cons_append, List.nil_append]
    rfl
  rw [bind_ok hdata]
  rfl

/-- Against C103, in the library: a client that begins again behind 4294966271 is disconnected. -/
theorem C103_library_violated (h : From es p) (hg : ∀ x ∈ es, Good x.1) (hl : Longs p.log) {w : Window} {t : UInt32}
    (hv : live p.log = true) (hw : window p.log = some w) (ht : w.token = some t) (hr : Ready p.conn) {n : UInt32} (hm : MayFollow w.seq n)
    (hn : n ≠ w.seq + 1) (id request : UInt32) (x : List UInt8) (hx : x.length ≤ 4072)
    (hrx : e.env.rx = .ok (chunk msg id (headed t n request x))) (he : e.react = []) : 4294966271 < w.seq.toNat ∧ n.toNat < 1024 ∧
    ∃ p', p.next e .linkData = .ok p' ∧ p'.log = p.log ++ [.got (chunk msg id (headed t n request x)), .note .error] ∧ p'.conn.link = false := by
  have hbl := headed_length t n request x
  have hp : chunk msg id (headed t n request x) = part msg 0x46 id (headed t n request x) := rfl
  have hlen : (chunk msg id (headed t n request x)).length = x.length + 24 := by rw [hp, part_length, hbl]
  have hwrap : 4294966271 < w.seq.toNat ∧ n.toNat < 1024 := by
    rcases hm with hm | hm
    · refine absurd (UInt32.toNat_inj.mp ?_) hn
      have h : (w.seq + 1).toNat = (w.seq.toNat + 1) % 2 ^ 32 := UInt32.toNat_add w.seq 1
      have := n.toNat_lt
      omega
    · exact hm
  obtain ⟨p', h1, h2, -, h3, -⟩ := C105_refused_partial h hg hl hv hw ht hr (d := chunk msg id (headed t n request x))
    (by rw [hp]; exact part_isChunk _ _ _ (by omega)) (by omega) (by omega) rfl (.inr (by
      rw [hp]
      show word _ (12 + 4) ≠ _
      rw [word_body, show word (headed t n request x) 4 = n from Channel.word4 _ _ _]
      exact hn)) hrx he
  exact ⟨hwrap.1, hwrap.2, p', h1, h2, h3⟩

/-! ## Examples -/

/-- What a history leaves, with the connection and its receive buffer. -/
def look (es : List (PEnv × Ev)) : Exec (View × Bool × Nat × Nat) := do
  let p ← (Peer.create garbage 0 0 0 0 0).run es
  pure (⟨p.st, p.conn.st, p.conn.link, p.log⟩, p.conn.opened, p.conn.rx.tail, p.conn.rx.head)

theorem look_from {es : List (PEnv × Ev)} {l : List PAct} (h : look es = .ok (⟨.established, .connected, true, l⟩, true, 0, 0)) :
    ∃ p, From es p ∧ p.log = l ∧ Ready p.conn := by
  obtain ⟨p, h1, h2⟩ := Exec.bind_eq_ok.mp h
  injection h2 with h2
  have hv := congrArg Prod.fst h2
  refine ⟨p, ⟨_, _, _, _, _, _, h1⟩, congrArg View.log hv, ⟨congrArg View.conn hv, congrArg View.link hv, ?_, ?_, ?_⟩⟩
  · exact congrArg (fun x => x.2.1) h2
  · exact congrArg (fun x => x.2.2.1) h2
  · exact congrArg (fun x => x.2.2.2) h2

theorem good_env (r : Modbus.Rx) : Good { env with env := { calmEnv with rx := r } } := ⟨⟨rfl, rfl, rfl, rfl⟩, by simp [env]⟩

/-- C105: the channel 5 takes the aborted part of a message for the channel 6. -/
example : ∃ p p' pay d, From talk p ∧ chanId p.log = some 5 ∧ d = part msg 0x41 6 (headed 77 53 11 [7, 8]) ∧ ¬ Mine p.log d ∧
    p.next (arrive d).1 .linkData = .ok p' ∧ p'.log = p.log ++ [.got d, .note (.request pay)] ∧ pay.take 2 = [7, 8] := by
  obtain ⟨p, h, hl, hr⟩ := look_from (es := talk) (l := talkLog) (by decide +kernel)
  obtain ⟨h1, p', pay, h2, h3, h4⟩ := C105_foreign_violated h (by rw [hl]; exact longs_of (by decide +kernel)) (by rw [hl]; decide +kernel)
    (w := ⟨some 77, 52, 10, true⟩) (by rw [hl]; decide +kernel) rfl hr 0x41 6 11 [7, 8] (by decide) rfl
    (e := (arrive (part msg 0x41 6 (headed 77 53 11 [7, 8]))).1) rfl rfl (.inl (by decide))
  exact ⟨p, p', pay, _, h, by rw [hl]; decide +kernel, rfl, h1, h2, h3, h4⟩

/-- A channel that was opened with the number 4294966272. -/
def oldStart : List (PEnv × Ev) := [(env, .user .open), arrive helloFrame, arrive (chunk opn 0 Channel.oldReq)]

theorem old_look : look oldStart = .ok (⟨.established, .connected, true, [.opening 5, .got (chunk opn 0 Channel.oldReq), .moved 4294966272 9, .issued 77,
    .sent (chunk opn 5 (Channel.openAnswer (cenv env) 5 77 1 9 0 3600000)) true]⟩, true, 0, 0) := by
  decide +kernel

theorem old_good : ∀ x ∈ oldStart, Good x.1 := by
  intro x hx
  simp only [oldStart, List.mem_cons, List.not_mem_nil, or_false] at hx
  rcases hx with rfl | rfl | rfl
  · exact good_env _
  · exact good_env _
  · exact good_env _

/-- C103, C105: a client at 4294966272 goes on with 1 and loses its connection. -/
example : ∃ p p', From oldStart p ∧ MayFollow 4294966272 1 ∧ p.next (arrive (chunk msg 5 (headed 77 1 10 [1]))).1 .linkData = .ok p' ∧
    p'.log = p.log ++ [.got (chunk msg 5 (headed 77 1 10 [1])), .note .error] ∧ p'.conn.link = false := by
  obtain ⟨p, h, hl, hr⟩ := look_from old_look
  obtain ⟨-, -, p', h1, h2, h3⟩ := C103_library_violated h old_good (by rw [hl]; exact longs_of (by decide +kernel)) (w := ⟨some 77, 4294966272, 9, false⟩)
    (t := 77) (by rw [hl]; decide +kernel) (by rw [hl]; decide +kernel) rfl hr (n := 1) (by decide) (by decide) 5 10 [1] (by decide)
    (e := (arrive (chunk msg 5 (headed 77 1 10 [1]))).1) rfl rfl
  exact ⟨p, p', h, by decide, h1, h2, h3⟩

/-- C105: an open request for the channel 9 with the number 51, behind 4294966272, renews the channel 5. -/
example : ∃ p p' own ans, From oldStart p ∧ p.next (arrive (chunk opn 9 Channel.openReq)).1 .linkData = .ok p' ∧ own = 5 ∧
    .sent (chunk opn own ans) true ∈ p'.log ∧ window p'.log = some ⟨some 77, 51, 9, false⟩ := by
  obtain ⟨p, h, hl, hr⟩ := look_from old_look
  obtain ⟨p', own, ans, h1, h2, h3, h4⟩ := C105_renewal_violated h old_good hr
    { (Ua.init : UaSecurityHeader) with securityPolicyUri := ⟨Channel.policyNone⟩ } ⟨51, 9⟩ (Cont.make 446 { (Ua.init : UaOpenSecureChannelReq) with
    requestHdr := { (Ua.init : UaRequestHeader) with requestHandle := 4 }, requestLifetime := 3600000 })
    ⟨show Channel.policyNone.length < 2 ^ 31 by decide +kernel, Nat.two_pow_pos 31, Nat.two_pow_pos 31⟩ ⟨⟨trivial, rfl, rfl⟩, ⟨trivial, trivial, trivial, trivial, Nat.two_pow_pos 31, trivial, trivial, trivial,
      fun h => by cases h⟩, trivial, trivial, trivial, Nat.two_pow_pos 31, trivial⟩ 9
    rfl (by decide +kernel) (e := (arrive (chunk opn 9 Channel.openReq)).1) rfl rfl
  refine ⟨p, p', own, ans, h, h1, ?_, h3, h4⟩
  rw [hl] at h2
  exact (Option.some.inj h2).symm

end Uscada.Ua.Peer
