import Verif.UaClientProps
import Verif.UaPeerAnswers
/-!
# What the client secure channel of `common/ua/protocols/secure` does with the answers it gets

The client decodes the answer to its open request without the container (OpcUaClientSecureChannel.cpp:111), so every field is
read four bytes early, and the revised life time is taken for the length of the nonce.
-/

namespace Uscada.Ua.Cli

open SM
open Channel (Plain AnswersOpen)
open Peer (chunk opn)

attribute [local irreducible] frame openReqEnc chunk

variable {es : List (KEnv × Ev)} {p : Cli} {e : KEnv}

/-! ## Decoding four bytes early -/

theorem mem_part {m : Mem} {d pre w post : List UInt8} (hb : memRead m 0 d.length = d) (hd : d = pre ++ (w ++ post)) :
    memRead m pre.length w.length = w := by
  have hlen : d.length = pre.length + (w.length + post.length) := by rw [hd]; simp
  rw [hlen, memRead_split, memRead_split, hd] at hb
  have h1 := (List.append_inj hb (MsgStorage.length_memRead ..)).2
  have h2 := (List.append_inj h1 (MsgStorage.length_memRead ..)).1
  rw [Nat.zero_add] at h2
  exact h2

theorem Takes.u64 (old : Int64) : Takes 8 (dec old) :=
  Takes.bind (n := 1) (k := 7) Takes.read fun _ => Takes.bind (n := 1) (k := 6) Takes.read fun _ =>
    Takes.bind (n := 1) (k := 5) Takes.read fun _ => Takes.bind (n := 1) (k := 4) Takes.read fun _ =>
    Takes.bind (n := 1) (k := 3) Takes.read fun _ => Takes.bind (n := 1) (k := 2) Takes.read fun _ =>
    Takes.bind (n := 1) (k := 1) Takes.read fun _ => Takes.bind (n := 1) (k := 0) Takes.read fun _ => Takes.pure _

theorem Takes.dateTime (old : DateTime) : Takes 8 (dec old) := Takes.bind (n := 8) (k := 0) (Takes.u64 _) fun _ => Takes.pure _

theorem Takes.statusCode (old : StatusCode) : Takes 4 (dec old) := Takes.bind (n := 4) (k := 0) (Takes.u32 _) fun _ => Takes.pure _

theorem Takes.securityToken (old : UaChannelSecurityToken) : Takes 20 (dec old) :=
  Takes.bind (n := 4) (k := 16) (Takes.u32 _) fun _ => Takes.bind (n := 4) (k := 12) (Takes.u32 _) fun _ =>
    Takes.bind (n := 8) (k := 4) (Takes.dateTime _) fun _ => Takes.bind (n := 4) (k := 0) (Takes.u32 _) fun _ => Takes.pure _

/-- The decoder continues where `n` bytes have been taken. -/
theorem Takes.run {α β : Type} {n : Nat} {d : Codec α} {f : α → Codec β} {b : Buf} (h : Takes n d) (hb : b.tail + n ≤ 4096) :
    ∃ a, (d >>= f) b = f a { b with tail := b.tail + n } := by
  obtain ⟨v, hv⟩ := h b hb
  exact ⟨v, by rw [Codec.bind_run, hv]; rfl⟩

/-- Eight zero bytes at offset 16 are a header without diagnostics, strings and additional header. -/
theorem hdr_run {b : Buf} (h : b.tail + 24 ≤ 4096) (hz : memRead b.packet (b.tail + 16) 8 = [0, 0, 0, 0, 0, 0, 0, 0]) :
    ∃ v, dec (Ua.init : UaResponseHeader) b = .ok (v, { b with tail := b.tail + 24 }) := by
  show ∃ v, (dec (Ua.init : DateTime) >>= _ : Codec UaResponseHeader) b = _
  obtain ⟨t, ht⟩ := Takes.run (b := b) (f := fun timestamp => do
    let requestHandle ← dec (Ua.init : UInt32)
    let serviceResult ← dec (Ua.init : StatusCode)
    let serviceDiagnostics ← dec (Ua.init : DiagnosticInfo)
    let stringTable ← dec (Ua.init : List Str)
    let additionalHeader ← dec (Ua.init : ExtensionObject)
    pure ({ timestamp, requestHandle, serviceResult, serviceDiagnostics, stringTable, additionalHeader } : UaResponseHeader))
    (Takes.dateTime (Ua.init : DateTime)) (by omega)
  obtain ⟨r, hr⟩ := Takes.run (b := { b with tail := b.tail + 8 }) (f := fun requestHandle => do
    let serviceResult ← dec (Ua.init : StatusCode)
    let serviceDiagnostics ← dec (Ua.init : DiagnosticInfo)
    let stringTable ← dec (Ua.init : List Str)
    let additionalHeader ← dec (Ua.init : ExtensionObject)
    pure (⟨t, requestHandle, serviceResult, serviceDiagnostics, stringTable, additionalHeader⟩ : UaResponseHeader))
    (Takes.u32 (Ua.init : UInt32)) (by show b.tail + 8 + 4 ≤ 4096; omega)
  obtain ⟨s, hs⟩ := Takes.run (b := { b with tail := b.tail + 8 + 4 }) (f := fun serviceResult => do
    let serviceDiagnostics ← dec (Ua.init : DiagnosticInfo)
    let stringTable ← dec (Ua.init : List Str)
    let additionalHeader ← dec (Ua.init : ExtensionObject)
    pure (⟨t, r, serviceResult, serviceDiagnostics, stringTable, additionalHeader⟩ : UaResponseHeader))
    (Takes.statusCode (Ua.init : StatusCode)) (by show b.tail + 8 + 4 + 4 ≤ 4096; omega)
  have hw := Channel.rspHdr_ok ⟨0⟩ 0
  have hread : Reads (do
      let serviceDiagnostics ← dec (Ua.init : DiagnosticInfo)
      let stringTable ← dec (Ua.init : List Str)
      let additionalHeader ← dec (Ua.init : ExtensionObject)
      pure (⟨t, r, s, serviceDiagnostics, stringTable, additionalHeader⟩ : UaResponseHeader)) [0, 0, 0, 0, 0, 0, 0, 0]
      ⟨t, r, s, Ua.init, Ua.init, Ua.init⟩ :=
    Reads.bind (w1 := [0]) (w2 := [0, 0, 0, 0, 0, 0, 0]) (Lawful.reads (Ua.init : DiagnosticInfo) hw.2.2.2.1)
      (Reads.bind (w1 := [0, 0, 0, 0]) (w2 := [0, 0, 0]) (Lawful.reads (Ua.init : List Str) hw.2.2.2.2.1)
        (Reads.map (w := [0, 0, 0]) (f := fun c => (⟨t, r, s, Ua.init, Ua.init, c⟩ : UaResponseHeader))
          (Lawful.reads (Ua.init : ExtensionObject) hw.2.2.2.2.2)))
  have hend := hread { b with tail := b.tail + 8 + 4 + 4 } (by show b.tail + 8 + 4 + 4 + 8 ≤ 4096; omega) hz
  exact ⟨_, ht.trans (hr.trans (hs.trans hend))⟩

/-- What is left to do after 48 bytes is the nonce. -/
theorem rsp_run {b : Buf} (h : b.tail + 48 ≤ 4096) (hz : memRead b.packet (b.tail + 16) 8 = [0, 0, 0, 0, 0, 0, 0, 0]) :
    ∃ g : ByteString → UaOpenSecureChannelRsp, dec (Ua.init : UaOpenSecureChannelRsp) b =
      (do let x ← dec (Ua.init : ByteString); pure (g x) : Codec UaOpenSecureChannelRsp) { b with tail := b.tail + 48 } := by
  obtain ⟨v, hv⟩ := hdr_run (b := b) (by omega) hz
  obtain ⟨a, ha⟩ := Takes.run (b := { b with tail := b.tail + 24 }) (f := fun serverProtocolVer => do
    let securityToken ← dec (Ua.init : UaChannelSecurityToken)
    let serverNonce ← dec (Ua.init : ByteString)
    pure (⟨v, serverProtocolVer, securityToken, serverNonce⟩ : UaOpenSecureChannelRsp))
    (Takes.u32 (Ua.init : UInt32)) (by show b.tail + 24 + 4 ≤ 4096; omega)
  obtain ⟨t, ht⟩ := Takes.run (b := { b with tail := b.tail + 24 + 4 }) (f := fun securityToken => do
    let serverNonce ← dec (Ua.init : ByteString)
    pure (⟨v, a, securityToken, serverNonce⟩ : UaOpenSecureChannelRsp))
    (Takes.securityToken (Ua.init : UaChannelSecurityToken)) (by show b.tail + 24 + 4 + 20 ≤ 4096; omega)
  refine ⟨fun x => ⟨v, a, t, x⟩, ?_⟩
  show (dec (Ua.init : UaResponseHeader) >>= _ : Codec UaOpenSecureChannelRsp) b = _
  rw [Codec.bind_run, hv, Exec.ok_bind]
  exact ha.trans ht

/-- A byte string that fits into the buffer is read, whether or not it was received. -/
theorem nonce_run {b : Buf} {n : Nat} (hn : n < 2 ^ 31) (hb : memRead b.packet b.tail 4 = leBytes 4 n) (h : b.tail + 4 + n ≤ 4096) :
    ∃ v, dec (Ua.init : ByteString) b = .ok (v, { b with tail := b.tail + 4 + n }) := by
  have hl := i32_len hn
  have hw := wire_len hn
  have hr := Lawful.reads (Int32.ofNat n) trivial b (by rw [hw, MsgStorage.length_leBytes]; simp only [maxPacketLen]; omega)
    (by rw [hw, MsgStorage.length_leBytes]; exact hb)
  have hr : dec (0 : Int32) b = .ok (Int32.ofNat n, { b with tail := b.tail + 4 }) := by
    rw [hw] at hr
    exact hr
  have hm : (memRead b.packet (b.tail + 4) n).length = n := MsgStorage.length_memRead ..
  have hc := Reads.readChars (l := memRead b.packet (b.tail + 4) n) (by rw [hm]; exact hn) { b with tail := b.tail + 4 }
    (by rw [hm]; exact h) (by rw [hm])
  rw [hm] at hc
  refine ⟨⟨memRead b.packet (b.tail + 4) n⟩, ?_⟩
  show (do
      let len ← dec (0 : Int32)
      if len = -1 then Pure.pure ⟨[]⟩ else do
        let bytes ← Ua.readChars len
        Pure.pure (⟨bytes⟩ : ByteString) : Codec ByteString) b = _
  rw [Codec.bind_run, hr, Exec.ok_bind]
  simp only
  rw [if_neg hl.2.2.2.2, Codec.bind_run, hc]
  rfl

/-- A byte string that does not fit is read outside of the buffer. -/
theorem nonce_ub {b : Buf} {n : Nat} (hn : n < 2 ^ 31) (hb : memRead b.packet b.tail 4 = leBytes 4 n) (h : b.tail + 4 ≤ 4096)
    (ho : 4096 < b.tail + 4 + n) : dec (Ua.init : ByteString) b = .ub := by
  have hl := i32_len hn
  have hw := wire_len hn
  have hr := Lawful.reads (Int32.ofNat n) trivial b (by rw [hw, MsgStorage.length_leBytes]; simp only [maxPacketLen]; omega)
    (by rw [hw, MsgStorage.length_leBytes]; exact hb)
  have hr : dec (0 : Int32) b = .ok (Int32.ofNat n, { b with tail := b.tail + 4 }) := by
    rw [hw] at hr
    exact hr
  show (do
      let len ← dec (0 : Int32)
      if len = -1 then Pure.pure ⟨[]⟩ else do
        let bytes ← Ua.readChars len
        Pure.pure (⟨bytes⟩ : ByteString) : Codec ByteString) b = _
  rw [Codec.bind_run, hr, Exec.ok_bind]
  simp only
  rw [if_neg hl.2.2.2.2, Codec.bind_run]
  have : Ua.readChars (Int32.ofNat n) { b with tail := b.tail + 4 } = .ub := by
    unfold Ua.readChars
    rw [if_neg hl.2.2.1, hl.2.1]
    exact readN_outside n _ h ho
  rw [this]
  rfl

/-- The bytes of a positive answer in its container: 16 bytes, 8 zero bytes, 24 bytes, life time, nonce. -/
theorem answer_bytes {rsp : UaOpenSecureChannelRsp} (h : Plain rsp.responseHdr) : ∃ x y, x.length = 16 ∧ y.length = 24 ∧
    wire (Cont.make 449 rsp) = x ++ ([0, 0, 0, 0, 0, 0, 0, 0] ++ (y ++ (leBytes 4 rsp.securityToken.revisedLifetime.toNat ++
      wire rsp.serverNonce))) := by
  obtain ⟨⟨t, hd, sr, di, st, ah⟩, ver, ⟨ch, tok, cr, life⟩, nonce⟩ := rsp
  obtain ⟨h1, h2, h3, h4⟩ := h
  simp only at h1 h2 h3 h4
  subst h1 h2 h3 h4
  have hz : wire (⟨⟨t, hd, ⟨0⟩, .leaf ⟨none, none, none, none, none, none⟩, [], ⟨⟨0, .numeric 0⟩, none⟩⟩, ver, ⟨ch, tok, cr, life⟩, nonce⟩ :
      UaOpenSecureChannelRsp) = (wire t ++ (wire hd ++ ([0, 0, 0, 0] ++ ([0] ++ ([0, 0, 0, 0] ++ [0, 0, 0]))))) ++ (wire ver ++
        ((wire ch ++ (wire tok ++ (wire cr ++ wire life))) ++ wire nonce)) := by
    have h1 : wire (⟨0⟩ : StatusCode) = [0, 0, 0, 0] := rfl
    have h2 : wire (DiagnosticInfo.leaf ⟨none, none, none, none, none, none⟩) = [0] := rfl
    have h3 : wire ([] : List Str) = [0, 0, 0, 0] := rfl
    have h4 : wire (⟨⟨0, .numeric 0⟩, none⟩ : ExtensionObject) = [0, 0, 0] := rfl
    show (wire t ++ (wire hd ++ (wire (⟨0⟩ : StatusCode) ++ (wire (DiagnosticInfo.leaf ⟨none, none, none, none, none, none⟩) ++
      (wire ([] : List Str) ++ wire (⟨⟨0, .numeric 0⟩, none⟩ : ExtensionObject)))))) ++ _ = _
    rw [h1, h2, h3, h4]
    rfl
  refine ⟨[1, 0, 0xC1, 1] ++ (wire t ++ wire hd), [0, 0, 0, 0] ++ (wire ver ++ (wire ch ++ (wire tok ++ wire cr))), rfl, rfl, ?_⟩
  show [1, 0, 0xC1, 1] ++ wire (⟨⟨t, hd, ⟨0⟩, .leaf ⟨none, none, none, none, none, none⟩, [], ⟨⟨0, .numeric 0⟩, none⟩⟩, ver,
    ⟨ch, tok, cr, life⟩, nonce⟩ : UaOpenSecureChannelRsp) = _
  rw [hz]
  simp only [List.append_assoc, List.cons_append, List.nil_append]
  rfl

/-! ## Arrival -/

/-- A chunk arrives in one piece. -/
theorem arrives (hr : Ready p.conn) {d : List UInt8} (hc : IsChunk d) (hl : d.length ≤ 4096) (hx : e.env.rx = .ok d) :
    ∃ b : Buf, b.tail = 0 ∧ b.bytes = d ∧ event e .linkData p = (handleData e >>= fun _ => onConn receivePreaction)
      { p with conn := { p.conn with rx := b, log := p.conn.log ++ [.note (.data b.bytes)] } } := by
  have h0 : memRead p.conn.rx.packet 0 p.conn.rx.head = [] := by rw [hr.head]; rfl
  have hm := memRead_append p.conn.rx [] d h0
  have ht : (p.conn.rx.append d).tail = 0 := hr.tail
  have hev := evaluate_prefix (p.conn.rx.append d) d [] ht hm (by rw [List.append_nil]; exact hc)
  rw [if_pos rfl] at hev
  have hrecv := receive_ok (b := p.conn.rx) (by rw [hr.head]; omega) (by rw [hr.head]; omega) hev
  refine ⟨p.conn.rx.append d, ht, ?_, ?_⟩
  · unfold Buf.bytes
    rw [ht]
    exact hm
  · show (SM.get >>= _) p = _
    rw [bind_ok (show SM.get p = (.ok p, p) from rfl)]
    simp only [hr.st]
    have h1 : onConn (receiveRx e.env) p = (.ok .done, { p with conn := { p.conn with rx := p.conn.rx.append d } }) := by
      unfold onConn receiveRx
      rw [if_pos hr.link, hr.opened, hx, hrecv, ← hr.opened]
    rw [bind_ok h1, ← hr.st]
    rfl

theorem decode_ok {α : Type} {d : Codec α} {a : α} {b : Buf} (h : d p.conn.rx = .ok (a, b)) :
    decode e d p = (.ok a, { p with conn := { p.conn with rx := b } }) := by
  unfold decode
  rw [h]

/-- The three headers of an answer are read, the rest is up to the decoder of `UaOpenSecureChannelRsp`. -/
theorem openRspDec_run (q : Cli) (sec : UaSecurityHeader) (seq : UaSequenceHeader) (x : List UInt8) (h1 : Wire.ok sec)
    (hdr : UaMessageHeader) (hh : Wire.ok hdr) {d : List UInt8} (hd : d = wire hdr ++ (wire sec ++ (wire seq ++ x)))
    (hlen : d.length ≤ 4096) (ht : q.conn.rx.tail = 0) (hb : memRead q.conn.rx.packet 0 d.length = d) :
    ∃ b : Buf, b.packet = q.conn.rx.packet ∧ b.head = q.conn.rx.head ∧ b.tail = (wire hdr ++ (wire sec ++ wire seq)).length ∧
      openRspDec e q = (decode e (dec (Ua.init : UaOpenSecureChannelRsp)) >>= fun _ => pure ()) { q with conn := { q.conn with rx := b } } := by
  let b1 := q.conn.rx.skip (wire hdr).length
  let b2 := b1.skip (wire sec).length
  let b3 := b2.skip (wire seq).length
  have r1 : dec (Ua.init : UaMessageHeader) q.conn.rx = .ok (hdr, b1) :=
    Peer.reads_part (pre := []) (post := wire sec ++ (wire seq ++ x)) (Lawful.reads hdr hh) hb hd ht hlen
  have r2 : dec (Ua.init : UaSecurityHeader) b1 = .ok (sec, b2) :=
    Peer.reads_part (b := b1) (pre := wire hdr) (post := wire seq ++ x) (Lawful.reads sec h1) hb hd
      (by show q.conn.rx.tail + _ = _; omega) hlen
  have r3 : dec (Ua.init : UaSequenceHeader) b2 = .ok (seq, b3) :=
    Peer.reads_part (b := b2) (pre := wire hdr ++ wire sec) (post := x) (Lawful.reads seq ⟨trivial, trivial⟩) hb
      (by rw [hd, List.append_assoc]) (by show q.conn.rx.tail + _ + _ = _; rw [List.length_append]; omega) hlen
  refine ⟨b3, rfl, rfl, ?_, ?_⟩
  · show q.conn.rx.tail + _ + _ + _ = _
    simp only [List.length_append]
    omega
  · unfold openRspDec
    rw [bind_ok (decode_ok r1), bind_ok (decode_ok (by exact r2)), bind_ok (decode_ok (by exact r3))]

/-- A well formed positive answer in one chunk. -/
structure Answer (d : List UInt8) (lifetime : UInt32) (before : Nat) : Prop where
  form : ∃ (ch : UInt32) (sec : UaSecurityHeader) (seq : UaSequenceHeader) (rsp : UaOpenSecureChannelRsp), Wire.ok sec ∧
    Plain rsp.responseHdr ∧ rsp.securityToken.revisedLifetime = lifetime ∧ before = 20 + (wire sec).length ∧
    d = chunk opn ch (wire sec ++ (wire seq ++ wire (Cont.make 449 rsp)))
  short : d.length ≤ 4096

/-- The answer is decoded up to the place where the life time is taken for the length of the nonce. -/
theorem answer_run {q : Cli} {d : List UInt8} {lifetime : UInt32} {before : Nat} (ha : Answer d lifetime before)
    (ht : q.conn.rx.tail = 0) (hb : memRead q.conn.rx.packet 0 d.length = d) :
    before + 52 ≤ 4096 ∧ ∃ (b : Buf) (g : ByteString → UaOpenSecureChannelRsp) (d' : Codec UaOpenSecureChannelRsp),
      b.packet = q.conn.rx.packet ∧ b.head = q.conn.rx.head ∧
      openRspDec e q = (decode e d' >>= fun _ => pure ()) { q with conn := { q.conn with rx := b } } ∧
      memRead b.packet (before + 48) 4 = leBytes 4 lifetime.toNat ∧
      d' b = (do let x ← dec (Ua.init : ByteString); pure (g x) : Codec UaOpenSecureChannelRsp) { b with tail := before + 48 } := by
  obtain ⟨⟨ch, sec, seq, rsp, h1, h2, h3, h4, h5⟩, hl⟩ := ha
  have hlen : (wire sec ++ (wire seq ++ wire (Cont.make 449 rsp))).length ≤ 4084 := by
    have : d.length = (wire sec ++ (wire seq ++ wire (Cont.make 449 rsp))).length + 12 := by
      rw [h5]
      unfold chunk opn
      simp only [List.length_append, List.length_cons, List.length_nil, MsgStorage.length_leBytes]
      omega
    omega
  have hd := h5.trans (Peer.chunk_header 0x4F 0x50 0x4E ch _ hlen)
  obtain ⟨b, hb1, hb2, hb3, hrun⟩ := openRspDec_run (e := e) q sec seq (wire (Cont.make 449 rsp)) h1 _
    ⟨⟨trivial, trivial, trivial⟩, trivial, trivial, trivial⟩ hd hl ht hb
  obtain ⟨x, y, hx, hy, hw⟩ := answer_bytes h2
  have hbefore : b.tail = before := by
    rw [hb3, h4]
    simp only [List.length_append]
    show 12 + (_ + 8) = _
    omega
  have hd' : d = (wire (⟨(0x4F, 0x50, 0x4E), 0x46, UInt32.ofNat ((wire sec ++ (wire seq ++ wire (Cont.make 449 rsp))).length + 12), ch⟩ :
      UaMessageHeader) ++ (wire sec ++ wire seq)) ++ (x ++ ([0, 0, 0, 0, 0, 0, 0, 0] ++ (y ++ (leBytes 4 rsp.securityToken.revisedLifetime.toNat ++
      wire rsp.serverNonce)))) := by
    rw [← hw, hd]
    simp only [List.append_assoc]
  rw [← hb1] at hb
  generalize hpre : (wire (⟨(0x4F, 0x50, 0x4E), 0x46, UInt32.ofNat ((wire sec ++ (wire seq ++ wire (Cont.make 449 rsp))).length + 12), ch⟩ :
      UaMessageHeader) ++ (wire sec ++ wire seq)) = pre at hd' hb3
  have hpl : pre.length = before := hb3.symm.trans hbefore
  have hz : memRead b.packet (b.tail + 16) 8 = [0, 0, 0, 0, 0, 0, 0, 0] := by
    have := mem_part (pre := pre ++ x) (w := [0, 0, 0, 0, 0, 0, 0, 0]) (post := y ++ (leBytes 4 rsp.securityToken.revisedLifetime.toNat ++
      wire rsp.serverNonce)) hb (by rw [hd']; simp only [List.append_assoc])
    rw [List.length_append, hx, hpl, ← hbefore] at this
    exact this
  have hlf : memRead b.packet (before + 48) 4 = leBytes 4 lifetime.toNat := by
    have := mem_part (pre := pre ++ (x ++ ([0, 0, 0, 0, 0, 0, 0, 0] ++ y))) (w := leBytes 4 rsp.securityToken.revisedLifetime.toNat)
      (post := wire rsp.serverNonce) hb (by rw [hd']; simp only [List.append_assoc])
    rw [MsgStorage.length_leBytes] at this
    simp only [List.length_append, hx, hy, hpl, List.length_cons, List.length_nil] at this
    rw [← h3]
    exact this
  have hroom : before + 52 ≤ 4096 := by
    have : d.length = pre.length + (16 + (8 + (24 + (4 + (wire rsp.serverNonce).length)))) := by
      rw [hd']
      simp only [List.length_append, hx, hy, MsgStorage.length_leBytes, List.length_cons, List.length_nil]
    omega
  obtain ⟨g, hg⟩ := rsp_run (b := b) (by omega) hz
  refine ⟨hroom, b, g, _, hb1, hb2, hrun, hlf, ?_⟩
  rw [hg, hbefore]

/-! ## C58: answers -/

theorem answer_type {d : List UInt8} {lifetime : UInt32} {before : Nat} (ha : Answer d lifetime before) : IsChunk d ∧ d.take 3 = opn := by
  obtain ⟨⟨ch, sec, seq, rsp, h1, h2, h3, h4, h5⟩, hl⟩ := ha
  have hlen : (wire sec ++ (wire seq ++ wire (Cont.make 449 rsp))).length ≤ 4084 := by
    have : d.length = (wire sec ++ (wire seq ++ wire (Cont.make 449 rsp))).length + 12 := by
      rw [h5]
      unfold chunk opn
      simp only [List.length_append, List.length_cons, List.length_nil, MsgStorage.length_leBytes]
      omega
    omega
  refine ⟨by rw [h5]; exact Peer.isChunk_chunk _ _ _ _ _ hlen, ?_⟩
  rw [h5]
  unfold chunk
  rfl

theorem bytes_mem {b : Buf} {d : List UInt8} (hb : b.tail = 0) (h : b.bytes = d) : memRead b.packet 0 d.length = d := by
  have hs : b.head = d.length := by
    rw [← h]
    unfold Buf.bytes
    rw [MsgStorage.length_memRead]
    rfl
  rw [← hs]
  unfold Buf.bytes at h
  rw [hb] at h
  exact h

/-- What the channel does with a well formed positive answer while it waits for one. -/
theorem waiting_answer (hr : Ready p.conn) (hs : p.st = .waiting) {d : List UInt8} {lifetime : UInt32} {before : Nat}
    (ha : Answer d lifetime before) (hx : e.env.rx = .ok d) : ∃ (b : Buf) (g : ByteString → UaOpenSecureChannelRsp)
      (d' : Codec UaOpenSecureChannelRsp) (q : Cli), before + 52 ≤ 4096 ∧
      memRead b.packet (before + 48) 4 = leBytes 4 lifetime.toNat ∧
      d' b = (do let x ← dec (Ua.init : ByteString); pure (g x) : Codec UaOpenSecureChannelRsp) { b with tail := before + 48 } ∧
      q = { p with conn := { p.conn with rx := b, log := p.conn.log ++ [.note (.data d)] }, log := p.log ++ [.got d] } ∧
      event e .linkData p = (decode e d' >>= fun _ => act .accepted >>= fun _ => modify (fun p => { p with st := .established }) >>= fun _ =>
        onConn receivePreaction) q := by
  obtain ⟨hc, htake⟩ := answer_type ha
  obtain ⟨b0, hb0, hbytes, hev⟩ := arrives (p := p) hr hc ha.short hx
  have hopn : Peer.typeIs b0 0x4F 0x50 0x4E = true := by
    rw [Peer.typeIs_take (by
      have : b0.size = d.length := by
        rw [← hbytes]
        unfold Buf.bytes
        rw [MsgStorage.length_memRead]
      rw [this]
      exact Nat.le_trans (by decide) hc.1), hbytes]
    exact decide_eq_true htake
  obtain ⟨hroom, b, g, d', hb1, hb2, hrun, hlf, hdec⟩ := answer_run (e := e) (q := { p with
      conn := { p.conn with rx := b0, log := p.conn.log ++ [.note (.data b0.bytes)] }, log := p.log ++ [.got b0.bytes] }) ha hb0
      (bytes_mem hb0 hbytes)
  refine ⟨b, g, d', _, hroom, hlf, hdec, rfl, ?_⟩
  rw [hev]
  unfold handleData
  rw [SM.assoc, bind_ok (show SM.get _ = (.ok _, _) from rfl), SM.assoc, bind_ok (show act _ _ = (.ok (), _) from rfl)]
  simp only [hs]
  unfold receiveOpenRsp
  rw [SM.assoc, SM.assoc, bind_ok (show SM.get _ = (.ok _, _) from rfl)]
  simp only [hopn, if_true]
  rw [SM.assoc, bind_run (m := openRspDec e), ← hs, hrun, ← bind_run, SM.assoc, hbytes]
  rfl

/-- C58: a well formed positive answer is accepted.  `_partial`: only if the revised life time, taken for the length of the
nonce, does not lead out of the receive buffer; the answer arrives in one piece. -/
theorem C58_accepts_partial (hr : Ready p.conn) (hs : p.st = .waiting) {d : List UInt8} {lifetime : UInt32} {before : Nat}
    (ha : Answer d lifetime before) (hx : e.env.rx = .ok d) (hl : before + 52 + lifetime.toNat ≤ 4096) :
    ∃ p', p.next e .linkData = .ok p' ∧ p'.st = .established ∧ p'.log = p.log ++ [.got d, .accepted] ∧ Ready p'.conn := by
  obtain ⟨b, g, d', q, hroom, hlf, hdec, hq, hev⟩ := waiting_answer hr hs ha hx
  obtain ⟨v, hv⟩ := nonce_run (b := { b with tail := before + 48 }) (n := lifetime.toNat) (by omega) hlf
    (by show before + 48 + 4 + _ ≤ 4096; omega)
  have h1 : d' q.conn.rx = .ok (g v, { b with tail := before + 48 + 4 + lifetime.toNat }) := by
    rw [hq]
    show d' b = _
    rw [hdec, Codec.bind_run, hv]
    rfl
  refine ⟨{ q with
    conn := { q.conn with rx := { b with tail := before + 48 + 4 + lifetime.toNat }.reset }, log := q.log ++ [.accepted],
    st := .established }, ?_, rfl, ?_, ?_⟩
  · show settle (event e .linkData p) = _
    rw [hev, bind_ok (decode_ok h1)]
    rfl
  · rw [hq]
    simp
  · rw [hq]
    exact ⟨hr.st, hr.link, hr.opened, rfl, rfl⟩

/-- C58: every well formed positive answer with a life time of 4096 ms or more (and less than 25 days) makes the client read
outside of its receive buffer. -/
theorem C58_misread_violated (hr : Ready p.conn) (hs : p.st = .waiting) {d : List UInt8} {lifetime : UInt32} {before : Nat}
    (ha : Answer d lifetime before) (hx : e.env.rx = .ok d) (h1 : 4096 ≤ lifetime.toNat) (h2 : lifetime.toNat < 2 ^ 31) :
    p.next e .linkData = .ub := by
  obtain ⟨b, g, d', q, hroom, hlf, hdec, hq, hev⟩ := waiting_answer hr hs ha hx
  have hv := nonce_ub (b := { b with tail := before + 48 }) (n := lifetime.toNat) h2 hlf
    (by show before + 48 + 4 ≤ 4096; omega) (by show 4096 < before + 48 + 4 + _; omega)
  have h1 : d' q.conn.rx = .ub := by
    rw [hq]
    show d' b = _
    rw [hdec, Codec.bind_run, hv]
    rfl
  show settle (event e .linkData p) = _
  rw [hev, bind_run]
  unfold decode
  rw [h1]
  rfl

/-! ## Client and server -/

theorem sec_ok (l : List UInt8) (h : l.length < 2 ^ 31) : Wire.ok (⟨⟨l⟩, ⟨[]⟩, ⟨[]⟩⟩ : UaSecurityHeader) :=
  ⟨h, Nat.two_pow_pos 31, Nat.two_pow_pos 31⟩

theorem request_ok : Wire.ok (Cont.make 446 (Ua.init : UaOpenSecureChannelReq)) := by
  refine ⟨⟨trivial, rfl, rfl⟩, ⟨trivial, trivial, trivial, trivial, Nat.two_pow_pos 31, trivial, trivial, trivial, ?_⟩,
    trivial, trivial, trivial, Nat.two_pow_pos 31, trivial⟩
  intro h
  cases h

/-- The open request as the encoding of the default request. -/
theorem request_chunk : openRequest = chunk opn 0 (wire (Ua.init : UaSecurityHeader) ++ (wire (⟨0, 0⟩ : UaSequenceHeader) ++
    wire (Cont.make 446 (Ua.init : UaOpenSecureChannelReq)))) := by decide +kernel

/-- C58: the server channel of the same library answers the request of the client, and the client accepts that answer: both
are in use then, and the server expects the token it sent with number 1.  For every server and client history. -/
theorem C58_opens_with_server {fs : List (PEnv × Peer.Ev)} {s : Peer} {f : PEnv} (h : Peer.From fs s)
    (hg : ∀ x ∈ fs, Peer.Good x.1) (hs : Ready s.conn) (hf : f.env.rx = .ok openRequest) (hw : f.env.writes = true)
    (hr : Ready p.conn) (hst : p.st = .waiting) :
    ∃ s' d, s.next f .linkData = .ok s' ∧ s'.log.getLast? = some (.sent d true) ∧ Ready s'.conn ∧
      Peer.window s'.log = some ⟨some f.token, 0, 0, false⟩ ∧
      ∀ e : KEnv, e.env.rx = .ok d → ∃ p', p.next e .linkData = .ok p' ∧ p'.st = .established ∧ p'.log = p.log ++ [.got d, .accepted] ∧
        Ready p'.conn := by
  obtain ⟨s', id, tx, ans, h1, h2, h3, h4, h5, h6, -⟩ := Peer.C44_library_open_partial (e := f) h hg hs (Ua.init : UaSecurityHeader) ⟨0, 0⟩
    (Cont.make 446 (Ua.init : UaOpenSecureChannelReq)) (sec_ok [] (Nat.two_pow_pos 31)) request_ok 0 request_chunk (by decide +kernel) hf hw
  refine ⟨s', chunk opn id ans, h1, ?_, h5, h6, fun e he => ?_⟩
  · rw [h2]
    simp
  · obtain ⟨sec, rsp, ha, hsec, hh, hp, hn, hc, ht, hl⟩ := h4
    have hx : wire rsp.serverNonce = [0xFF, 0xFF, 0xFF, 0xFF] := by rw [hn]; rfl
    obtain ⟨x, y, hx1, hy1, hw1⟩ := answer_bytes hp
    have hlen : (wire (Cont.make 449 rsp)).length = 56 := by
      rw [hw1, hx]
      simp only [List.length_append, hx1, hy1, MsgStorage.length_leBytes, List.length_cons, List.length_nil]
    have hsl : (wire sec).length = 59 := by rw [hsec]; rfl
    have hans : ans.length = 123 := by
      rw [ha, List.length_append, List.length_append, hlen, hsl]
      rfl
    have hfit : (chunk opn id ans).length ≤ 4096 := by
      unfold chunk opn
      simp only [List.length_append, List.length_cons, List.length_nil, MsgStorage.length_leBytes, hans]
      omega
    obtain ⟨p', g1, g2, g3, g4⟩ := C58_accepts_partial (e := e) hr hst (d := chunk opn id ans) (lifetime := 0) (before := 79)
      ⟨⟨id, sec, _, rsp, by rw [hsec]; exact sec_ok _ (by decide +kernel), hp, hl, by rw [hsl], by rw [ha]⟩, hfit⟩ he (by decide)
    exact ⟨p', g1, g2, g3, g4⟩

/-! ## Runs -/

structure View where
  st : KSt
  conn : CSt
  link : Bool
  opened : Bool
  armed : Bool
  tail : Nat
  head : Nat
  log : List KAct
deriving DecidableEq, Repr

def view (p : Cli) : View := ⟨p.st, p.conn.st, p.conn.link, p.conn.opened, p.conn.armed, p.conn.rx.tail, p.conn.rx.head, p.log⟩

def observe (es : List (KEnv × Ev)) : Exec View := do
  let p ← (Cli.create garbage).run es
  pure p.view

theorem observe_from {es : List (KEnv × Ev)} {v : View} (h : observe es = .ok v) :
    ∃ p, From es p ∧ p.view = v := by
  obtain ⟨p, h1, h2⟩ := Exec.bind_eq_ok.mp h
  injection h2 with h2
  exact ⟨p, ⟨_, h1⟩, h2⟩

def env : KEnv := { env := calmEnv, stop := 0, react := [] }

/-- A chunk arrives. -/
def arrive (d : List UInt8) : KEnv × Ev := ({ env with env := { calmEnv with rx := .ok d } }, .linkData)

/-- Open, connected, acknowledged. -/
def start : List (KEnv × Ev) := [(env, .user .open), (env, .linkConnected), arrive ackFrame]

def startLog : List KAct := [.opening, .connected, .sent openRequest true]

/-- An answer of a server: channel 5, token 77, number 1, with the given life time. -/
def answer (lifetime : UInt32) : List UInt8 := chunk opn 5 (Channel.openAnswer (Peer.cenv Peer.env) 5 77 1 0 0 lifetime)

/-- The premises of `C58_order_partial`, `C58_in_use_partial` and `C58_accepts_partial`, and what they say of a run. -/
example : ∃ p, From (start ++ [arrive (answer 0)]) p ∧ (∀ x ∈ start ++ [arrive (answer 0)], Good x.1) ∧ life p.log = some .secured ∧
    p.st = .established ∧ p.conn.link = true ∧ p.conn.armed = true ∧ p.log = startLog ++ [.got (answer 0), .accepted] := by
  obtain ⟨p, hp, hv⟩ := observe_from (es := start ++ [arrive (answer 0)])
    (v := ⟨.established, .connected, true, true, true, 0, 0, startLog ++ [.got (answer 0), .accepted]⟩) (by decide +kernel)
  injection hv with h1 h2 h3 h4 h5 h6 h7 h8
  refine ⟨p, hp, ?_, by rw [h8]; decide +kernel, h1, h3, h5, h8⟩
  have he : ∀ r, Good { env with env := { calmEnv with rx := r } } := fun r => ⟨⟨rfl, rfl, rfl, rfl⟩, by simp [env]⟩
  intro x hx
  simp only [start, List.cons_append, List.nil_append, List.mem_cons, List.not_mem_nil, or_false] at hx
  rcases hx with rfl | rfl | rfl | rfl
  · exact he _
  · exact he _
  · exact he _
  · exact he _

theorem good_start : ∀ x ∈ start, Good x.1 := by
  have he : ∀ r, Good { env with env := { calmEnv with rx := r } } := fun r => ⟨⟨rfl, rfl, rfl, rfl⟩, by simp [env]⟩
  intro x hx
  simp only [start, List.mem_cons, List.not_mem_nil, or_false] at hx
  rcases hx with rfl | rfl | rfl
  · exact he _
  · exact he _
  · exact he _

/-- A waiting client whose connection is ready, as `C58_accepts_partial`, `C58_misread_violated` and `C58_opens_with_server`
ask for. -/
example : ∃ p, From start p ∧ p.st = .waiting ∧ Ready p.conn := by
  obtain ⟨p, hp, hv⟩ := observe_from (es := start) (v := ⟨.waiting, .connected, true, true, true, 0, 0, startLog⟩) (by decide +kernel)
  injection hv with h1 h2 h3 h4 h5 h6 h7 h8
  exact ⟨p, hp, h1, h2, h3, h4, h6, h7⟩

/-- An answer with a life time of one hour. -/
example : Answer (answer 3600000) 3600000 79 := by
  refine ⟨⟨5, ⟨⟨Channel.policyNone⟩, ⟨[]⟩, ⟨[]⟩⟩, ⟨1, 0⟩, { (Ua.init : UaOpenSecureChannelRsp) with
    responseHdr := { (Ua.init : UaResponseHeader) with timestamp := ⟨5⟩ }, securityToken := ⟨5, 77, ⟨6⟩, 3600000⟩ }, ?_, ⟨rfl, rfl, rfl, rfl⟩,
    rfl, rfl, ?_⟩, ?_⟩
  · exact sec_ok _ (by decide +kernel)
  · decide +kernel
  · decide +kernel

/-! ## Where the code breaks the claims -/

/-- A channel that waits for an answer while its connection is idle does nothing any more. -/
theorem stuck_run {q : Cli} (h1 : q.st = .waiting) (h2 : q.conn.st = .init) {fs : List (KEnv × Ev)} {p' : Cli} (hr : q.run fs = .ok p') :
    p'.st = .waiting ∧ p'.conn.st = .init ∧ p'.log = q.log := by
  refine run_keeps (P := fun x : Cli => x.st = .waiting ∧ x.conn.st = .init ∧ x.log = q.log) (G := fun _ => True) ?_ (fun _ _ => trivial)
    ⟨h1, h2, rfl⟩ hr
  rintro e v - p ⟨g1, g2, g3⟩
  cases v with
  | user c =>
    cases c with
    | «open» =>
      show SPost _ _ ((SM.get >>= _) p)
      rw [bind_ok (show SM.get p = (.ok p, p) from rfl)]
      simp only [g1]
      exact ⟨g1, g2, g3⟩
    | consume n => exact ⟨g1, g2, g3⟩
    | fail => exact ⟨g1, g2, g3⟩
  | linkConnected =>
    show SPost _ _ ((SM.get >>= _) p)
    rw [bind_ok (show SM.get p = (.ok p, p) from rfl)]
    simp only [g2]
    exact ⟨g1, g2, g3⟩
  | linkData =>
    show SPost _ _ ((SM.get >>= _) p)
    rw [bind_ok (show SM.get p = (.ok p, p) from rfl)]
    simp only [g2]
    exact ⟨g1, g2, g3⟩
  | linkError =>
    refine STri.bind (T := fun x : Cli => x.st = .waiting ∧ x.conn.st = .init ∧ x.log = q.log)
      (P := fun x : Cli => x.st = .waiting ∧ x.conn.st = .init ∧ x.log = q.log) (R := fun _ (x : Cli) => x.st = .waiting ∧ x.conn.st = .init ∧ x.log = q.log)
      (fun x (hx : x.st = .waiting ∧ x.conn.st = .init ∧ x.log = q.log) => ?_) (fun _ => STri.get fun x hx => ?_) p ⟨g1, g2, g3⟩
    · exact hx
    simp only [hx.2.1]
    exact hx
  | timer =>
    refine STri.bind (T := fun x : Cli => x.st = .waiting ∧ x.conn.st = .init ∧ x.log = q.log)
      (P := fun x : Cli => x.st = .waiting ∧ x.conn.st = .init ∧ x.log = q.log) (R := fun _ (x : Cli) => x.st = .waiting ∧ x.conn.st = .init ∧ x.log = q.log)
      (fun x (hx : x.st = .waiting ∧ x.conn.st = .init ∧ x.log = q.log) => ?_) (fun _ => STri.get fun x hx => ?_) p ⟨g1, g2, g3⟩
    · exact hx
    simp only [hx.2.1]
    exact hx

/-- C58: when the connection ends while the answer is awaited, the user is told, but the channel is lost for good: whatever
happens afterwards, no `open` is accepted any more and nothing is sent or reported. -/
theorem C58_stuck_violated : ∃ (es : List (KEnv × Ev)) (p : Cli), From es p ∧ (∀ x ∈ es, Good x.1) ∧ life p.log = some .idle ∧
    p.conn.link = false ∧ ∀ (fs : List (KEnv × Ev)) (p' : Cli), p.run fs = .ok p' → p'.log = p.log := by
  obtain ⟨p, hp, hv⟩ := observe_from (es := start ++ [(env, .timer)]) (v := ⟨.waiting, .init, false, false, false, 0, 0, startLog ++ [.note .closed]⟩)
    (by decide +kernel)
  injection hv with h1 h2 h3 h4 h5 h6 h7 h8
  refine ⟨_, p, hp, ?_, by rw [h8]; decide +kernel, h3, fun fs p' hr => (stuck_run h1 h2 hr).2.2⟩
  intro x hx
  rcases List.mem_append.mp hx with hx | hx
  · exact good_start x hx
  · rw [List.mem_singleton] at hx
    subst hx
    exact ⟨⟨rfl, rfl, rfl, rfl⟩, by simp [env]⟩

theorem run_append (es fs : List (KEnv × Ev)) (p : Cli) : p.run (es ++ fs) = p.run es >>= fun q => q.run fs := by
  induction es generalizing p with
  | nil => rfl
  | cons x es ih =>
    show (p.next x.1 x.2 >>= fun q => q.run (es ++ fs)) = (p.next x.1 x.2 >>= fun q => q.run es) >>= fun q => q.run fs
    cases p.next x.1 x.2 with
    | ok q => exact ih q
    | throws => rfl
    | abort => rfl
    | ub => rfl

/-- A message instead of the answer. -/
def unexpected : List UInt8 := chunk Peer.msg 5 (Channel.msg 52 10 [1, 2, 3])

/-- C58: a chunk of another type while the answer is awaited is reported as an error; the channel is not in use any more, but
its connection is still up, and the next `open` waits for a connection that is never reported again. -/
theorem C58_link_kept_violated : ∃ (es : List (KEnv × Ev)) (p : Cli), From es p ∧ (∀ x ∈ es, Good x.1) ∧ life p.log = some .idle ∧
    p.conn.link = true ∧ ∃ p', p.next env (.user .open) = .ok p' ∧ life p'.log = some .opening ∧ p'.conn.st = .connected := by
  have h1 : observe (start ++ [arrive unexpected] ++ [(env, .user .open)]) =
    .ok ⟨.connecting, .connected, true, true, true, 0, 0, startLog ++ [.got unexpected, .note .error, .opening]⟩ := by decide +kernel
  have h2 : observe (start ++ [arrive unexpected]) =
    .ok ⟨.init, .connected, true, true, true, 0, 0, startLog ++ [.got unexpected, .note .error]⟩ := by decide +kernel
  obtain ⟨p', g1, g2⟩ := Exec.bind_eq_ok.mp h1
  obtain ⟨p, g3, g4⟩ := Exec.bind_eq_ok.mp h2
  rw [run_append, g3] at g1
  obtain ⟨q, g5, g6⟩ := Exec.bind_eq_ok.mp (show (p.next env (.user .open) >>= fun q => q.run []) = .ok p' from g1)
  injection g6 with g6
  subst g6
  injection g2 with g2
  injection g4 with g4
  have e1 : p.log = _ := congrArg View.log g4
  have e2 : q.log = _ := congrArg View.log g2
  refine ⟨_, p, ⟨_, g3⟩, ?_, by rw [e1]; decide +kernel, congrArg View.link g4, q, g5, by rw [e2]; decide +kernel, congrArg View.conn g2⟩
  intro x hx
  rcases List.mem_append.mp hx with hx | hx
  · exact good_start x hx
  · rw [List.mem_singleton] at hx
    subst hx
    exact ⟨⟨rfl, rfl, rfl, rfl⟩, by simp [arrive, env]⟩

/-- C58: a user who throws when told of the end is told again. -/
theorem C58_throwing_user_violated : ∃ (es : List (KEnv × Ev)) (p : Cli), From es p ∧ (∀ x ∈ es, Avail x.1.env) ∧ life p.log = none := by
  obtain ⟨p, hp, hv⟩ := observe_from (es := [(env, .user .open), ({ env with react := [.fail] }, .linkError), (env, .timer)])
    (v := ⟨.init, .init, false, false, false, 0, 0, [.opening, .note .error, .note .error]⟩) (by decide +kernel)
  injection hv with h1 h2 h3 h4 h5 h6 h7 h8
  refine ⟨_, p, hp, ?_, by rw [h8]; decide +kernel⟩
  intro x hx
  simp only [List.mem_cons, List.not_mem_nil, or_false] at hx
  rcases hx with rfl | rfl | rfl <;> exact ⟨rfl, rfl, rfl, rfl⟩

/-- C58: when connecting fails at once, the channel is in use without a running timer, so that nothing ever ends the use. -/
theorem C58_connect_fails_violated : ∃ (es : List (KEnv × Ev)) (p : Cli), From es p ∧ life p.log = some .opening ∧ p.conn.armed = false := by
  obtain ⟨p, hp, hv⟩ := observe_from (es := [({ env with env := { calmEnv with connects := false } }, .user .open)])
    (v := ⟨.init, .connecting, true, false, false, 0, 0, [.opening]⟩) (by decide +kernel)
  injection hv with h1 h2 h3 h4 h5 h6 h7 h8
  exact ⟨_, p, hp, by rw [h8]; decide +kernel, h5⟩

/-- C58: once the channel is established, whatever arrives is dropped: the user is never told. -/
theorem C58_data_ignored_violated (hr : Ready p.conn) (hs : p.st = .established) {d : List UInt8} (hc : IsChunk d)
    (hl : d.length ≤ 4096) (hx : e.env.rx = .ok d) :
    ∃ p', p.next e .linkData = .ok p' ∧ p'.log = p.log ++ [.got d] ∧ p'.st = .established ∧ Ready p'.conn := by
  obtain ⟨b, hb, hbytes, hev⟩ := arrives (p := p) hr hc hl hx
  refine ⟨{ p with conn := { p.conn with rx := b.reset, log := p.conn.log ++ [.note (.data d)] }, log := p.log ++ [.got d] }, ?_, rfl, hs,
    ⟨hr.st, hr.link, hr.opened, rfl, rfl⟩⟩
  show settle (event e .linkData p) = _
  rw [hev]
  unfold handleData
  rw [SM.assoc, bind_ok (show SM.get _ = (.ok _, _) from rfl), SM.assoc, bind_ok (show act _ _ = (.ok (), _) from rfl)]
  simp only [hs, hbytes]
  rfl

end Uscada.Ua.Cli
