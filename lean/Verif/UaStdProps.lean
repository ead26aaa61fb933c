import Verif.UaStackRuns
import Verif.UaStdNull
/-!
# C74: a request is answered whatever encoding of it the client has chosen

`StdReq r w` says that the bytes `w` are an encoding of the request `r` that the standard allows (`UaStd`).  Those without null arrays
(`Session.Says`) are all understood: the theorems about requests (C39, C40, C50, C66, ...) are stated for them.  Those with a null array are
dropped without an answer.
-/

namespace Uscada.Ua

namespace Session

open MsgStorage SM

/-- The bytes are an encoding of the request that the standard allows. -/
def StdReq : SReq → List UInt8 → Prop
  | .getEndpoints q => std true (Cont.make 428 q)
  | .create q => std true (Cont.make 461 q)
  | .activate q => std true (Cont.make 467 q)
  | .close q => std true (Cont.make 473 q)
  | .read q => std true (Cont.make 631 q)

/-- C74: the answer, the state of all sessions, and whether the server survives depend on the request, not on the encoding of it that the
client has chosen, nor on what stands behind it in the buffer. -/
theorem C74_same_partial (s : Sessions) (e : SEnv) (hdr : MsgHdr) {r : SReq} {w w' x x' : List UInt8} (hw : Says r w) (hw' : Says r w')
    (hl : (w ++ x).length ≤ 4096) (hl' : (w' ++ x').length ≤ 4096) : next s ⟨e, hdr, w ++ x⟩ = next s ⟨e, hdr, w' ++ x'⟩ := by
  rw [next_run s e hdr hw hl, next_run s e hdr hw' hl']

/-- C74: no bytes are the encoding of two requests. -/
theorem C74_meaning {r r' : SReq} {w w' x x' : List UInt8} (hw : Says r w) (hw' : Says r' w') (hx : w ++ x = w' ++ x')
    (hl : (w ++ x).length ≤ 4096) : r = r' ∧ w = w' := by
  have h1 := loaded (dispatch_reads r hw) x hl (fun _ => 0)
  have h2 := loaded (dispatch_reads r' hw') x' (hx ▸ hl) (fun _ => 0)
  rw [hx, h2] at h1
  injection h1 with h1
  injection h1 with h1 h3
  have hlen : w'.length = w.length := by
    have := congrArg Buf.tail h3
    simpa only [Buf.skip, Nat.add_left_cancel_iff] using this
  refine ⟨(Option.some.inj h1).symm, ?_⟩
  have := congrArg (List.take w.length) hx
  rwa [List.take_left' rfl, List.take_left' hlen] at this

theorem says_or_chokes (r : SReq) {w : List UInt8} (h : StdReq r w) : Says r w ∨ Chokes dispatch w := by
  have hid : ∀ (id : UInt32) {α : Type} [Ua α] [Wire α] [Std α] [Accepts α] [Splits α] {q : α} {w : List UInt8} (f : α → SReq),
      requestDec id = (do let r ← dec (Ua.init : α); pure (some (f r))) → std true (Cont.make id q) w →
      std false (Cont.make id q) w ∨ Chokes dispatch w := by
    intro id α _ _ _ _ _ q w f hf hr
    obtain ⟨a, b, h1, h2, rfl⟩ := hr
    have h1 := Flat.flat _ _ h1
    rcases Splits.split _ _ h2 with h2 | c
    · exact .inl ⟨a, b, h1, h2, rfl⟩
    · refine .inr (Chokes.later (Accepts.acc (⟨⟨0, .numeric id⟩, none, none⟩ : ExpandedNodeId) a h1) ?_)
      show Chokes (requestDec id) b
      rw [hf]
      exact Chokes.only c
  cases r with
  | getEndpoints q => exact hid 428 SReq.getEndpoints rfl h
  | create q => exact hid 461 SReq.create rfl h
  | activate q => exact hid 467 SReq.activate rfl h
  | close q => exact hid 473 SReq.close rfl h
  | read q => exact hid 631 SReq.read rfl h

theorem choked {w : List UInt8} (h : Chokes dispatch w) (s : Sessions) (e : SEnv) (hdr : MsgHdr) {x : List UInt8} (hl : (w ++ x).length ≤ 4096) :
    next s ⟨e, hdr, w ++ x⟩ = .ok s := by
  unfold next event
  have h1 : dispatch ((Buf.create e.mem).append (w ++ x)) = .throws := by
    have hl' := hl
    rw [List.length_append] at hl'
    refine h _ ?_ ?_
    · show 0 + w.length ≤ maxPacketLen
      simp only [maxPacketLen]
      omega
    · apply memRead_ext rfl
      intro i hi
      have := getD_memRead ((Buf.create e.mem).append (w ++ x)).packet 0 (w ++ x).length i (by simp; omega)
      rw [Channel.load_packet, List.getD_eq_getElem?_getD, List.getElem?_append_left hi, ← List.getD_eq_getElem?_getD] at this
      exact this.symm
  rw [bind_ok (lift_ok (Channel.load_ok _ _ hl) _)]
  show settle ((lift (dispatch _) >>= _) s) = _
  rw [h1]
  rfl

/-- C74 does not hold: every encoding with a null array is dropped; there is no answer and nothing changes. -/
theorem C74_null_violated (s : Sessions) (e : SEnv) (hdr : MsgHdr) {r : SReq} {w x : List UInt8} (h : StdReq r w) (hn : ¬ Says r w)
    (hl : (w ++ x).length ≤ 4096) : next s ⟨e, hdr, w ++ x⟩ = .ok s :=
  choked ((says_or_chokes r h).resolve_left hn) s e hdr hl

/-- OPC 10000-4, 7.36: a software certificate is a signed one, two byte strings. -/
def stdCertificate (data sig : ByteString) : List UInt8 → Prop := std true data ⋄ std true sig

/-- OPC 10000-4, 5.6.3: an activate request with one software certificate. -/
def StdCertified (q : UaActivateSessionReq) (data sig : ByteString) : List UInt8 → Prop :=
  std true (⟨⟨0, .numeric 467⟩, none, none⟩ : ExpandedNodeId) ⋄ (std true q.requestHdr ⋄ (std true q.clientSignature ⋄
    (((fun w => w = [1, 0, 0, 0]) ⋄ stdCertificate data sig) ⋄ (std true q.localeIds ⋄ (std true q.userIdentityToken ⋄ std true q.userTokenSignature)))))

/-- C74 does not hold: the certificates are read as single bytes, so what follows is read from the wrong position.  A request with one certificate
that begins with a byte above 127 is dropped. -/
theorem C74_certificate_violated (s : Sessions) (e : SEnv) (hdr : MsgHdr) {q : UaActivateSessionReq} {c : UInt8} {data : List UInt8} {sig : ByteString}
    (hc : 128 ≤ c.toNat) {w x : List UInt8} (h : StdCertified q ⟨c :: data⟩ sig w) (hl : (w ++ x).length ≤ 4096) :
    next s ⟨e, hdr, w ++ x⟩ = .ok s := by
  refine choked ?_ s e hdr hl
  obtain ⟨a1, _, h1, ⟨a2, _, h2, ⟨a3, _, h3, ⟨_, a5, ⟨_, _, rfl, ⟨d1, d2, ⟨hlen, hd⟩, h5, rfl⟩, rfl⟩, _, rfl⟩, rfl⟩, rfl⟩, rfl⟩ := h
  refine Chokes.later (Accepts.acc (⟨⟨0, .numeric 467⟩, none, none⟩ : ExpandedNodeId) a1 (Flat.flat _ _ h1)) ?_
  have hd : d1 = leBytes 4 (data.length + 1) ++ c :: data := by
    rcases hd with hd | ⟨hd, _⟩
    · exact hd
    · cases hd
  obtain ⟨y0, y1, y2, y3, hy⟩ : ∃ y0 y1 y2 y3 : UInt8, leBytes 4 (data.length + 1) = [y0, y1, y2, y3] := ⟨_, _, _, _, rfl⟩
  rw [hy] at hd
  have hcert : Reads (dec (Ua.init : List UInt8)) [1, 0, 0, 0, y0] [y0] :=
    Accepts.acc (α := List UInt8) [y0] _ ⟨by simp, .inl ⟨[1, 0, 0, 0], [y0], (by show _ = leBytes 4 1; decide), ⟨[y0], [], rfl, rfl, rfl⟩, rfl⟩⟩
  have hneg : ∃ n : Int32, n < 0 ∧ wire n = [y1, y2, y3, c] := by
    have b1 := y1.toNat_lt
    have b2 := y2.toNat_lt
    have b3 := y3.toNat_lt
    have b4 := c.toNat_lt
    generalize hN : y1.toNat + 256 * y2.toNat + 65536 * y3.toNat + 16777216 * c.toNat = N
    refine ⟨⟨UInt32.ofNat N⟩, ?_, ?_⟩
    · rw [Int32.lt_iff_toInt_lt]
      show (BitVec.ofNat 32 N).toInt < 0
      rw [BitVec.toInt_eq_toNat_cond, BitVec.toNat_ofNat, Nat.mod_eq_of_lt (by omega), if_neg (by omega)]
      omega
    · show leBytes 4 (UInt32.ofNat N).toNat = _
      rw [UInt32.toNat_ofNat', Nat.mod_eq_of_lt (by omega), le4]
      simp only [List.cons.injEq, and_true, ← UInt8.toNat_inj, UInt8.toNat_ofNat']
      omega
  obtain ⟨n, hn0, hn⟩ := hneg
  have hloc : Chokes (dec (Ua.init : List Str)) [y1, y2, y3, c] := by
    rw [← hn]
    intro b hlen hb
    show (do
      let n ← dec (0 : Int32)
      if n < 0 then Codec.throws else decElems (resizeTo ([] : List Str) n.toInt.toNat)) b = _
    rw [Codec.bind_run, show dec (0 : Int32) b = _ from Lawful.reads n trivial b hlen hb]
    simp only [Exec.ok_bind]
    rw [if_pos hn0]
    rfl
  have := Chokes.later (f := fun h => do
      let sg ← dec (Ua.init : UaSignatureData)
      let cs ← dec (Ua.init : List UInt8)
      let ls ← dec (Ua.init : List Str)
      let ut ← dec (Ua.init : ExtensionObject)
      let us ← dec (Ua.init : UaSignatureData)
      Pure.pure (⟨h, sg, cs, ls, ut, us⟩ : UaActivateSessionReq)) (Accepts.acc q.requestHdr a2 (Flat.flat _ _ h2)) (Chokes.later (Accepts.acc q.clientSignature a3 (Flat.flat _ _ h3))
    (Chokes.later hcert (Chokes.first (data ++ d2 ++ a5) hloc)))
  have e : a2 ++ (a3 ++ ([1, 0, 0, 0, y0] ++ ([y1, y2, y3, c] ++ (data ++ d2 ++ a5)))) = a2 ++ (a3 ++ ([1, 0, 0, 0] ++ (d1 ++ d2) ++ a5)) := by
    rw [hd]
    simp only [List.append_assoc, List.cons_append, List.nil_append]
  rw [e] at this
  exact Chokes.only (f := fun r => Pure.pure (some (SReq.activate r))) this

end Session

/-- C74 does not hold for diagnostic infos, which are part of every answer: the standard (part 6, 5.2.2.12) marks a locale with 8 and a localized text
with 4, the program the other way round. -/
theorem C74_diagnosticInfo_violated (x : Int32) :
    RoundTrips (DiagnosticInfo.leaf ⟨none, none, some x, none, none, none⟩) (4 :: leBytes 4 x.toUInt32.toNat) ∧
    RoundTrips (DiagnosticInfo.leaf ⟨none, none, none, some x, none, none⟩) (8 :: leBytes 4 x.toUInt32.toNat) :=
  ⟨roundTrips (DiagnosticInfo.leaf ⟨none, none, some x, none, none, none⟩) trivial, roundTrips (DiagnosticInfo.leaf ⟨none, none, none, some x, none, none⟩) trivial⟩

namespace Stack

open MsgStorage Channel Transport
open Session (StdReq Says)

variable {m : Nat → Mem} {u : Nat → UInt32 × UInt32} {evs : List (Env × Ev)} {s : Stack}

/-- C74 does not hold: a connected client that sends a request with a null array gets no answer.  The server has nothing left to do for it: the request is noted, no message is
pending, and all sessions are as before. -/
theorem C74_null_remote_violated (h : Reach m u evs s) {k : Nat} {ch : UInt32} {w : Window} (hr : Ready s k ch w) {e1 e2 e3 : Env}
    (h1 : Calm e1) (h2 : Calm e2) (h3 : Calm e3) {flag : UInt8} {id : UInt32} {r : SReq} {body : List UInt8} (hq : StdReq r body) (hn : ¬ Says r body)
    (hlen : body.length ≤ 4032) (hb : Brings s e1 k (chunk .msg flag ch (request w id body))) :
    ∃ s' x, run s [(e1, .net (.linkData k)), (e2, .deliver), (e3, .deliver)] = .ok s' ∧
      Reach m u (evs ++ [(e1, .net (.linkData k)), (e2, .deliver), (e3, .deliver)]) s' ∧
      (s'.srv.conns k).log = (s.srv.conns k).log ++ [.up (.message ch flag (request w id body ++ x))] ∧
      s'.sess = s.sess ∧ Ready s' k ch (Window.next w) := by
  obtain ⟨s2, x, y, hx, hy, hrun2, hre2, hlog2, hst2, hop2, has2, hw2, hbd2, hse2, hbox2, hbe2, htx2, hbl2⟩ := comes_in h hr h1 h2 hlen hb
  have hn3 : Session.next s2.sess ⟨e3.sess, header s k ch id, body ++ x ++ y⟩ = .ok s2.sess := by
    rw [List.append_assoc]
    exact Session.C74_null_violated s2.sess e3.sess (header s k ch id) hq hn (by simp only [List.length_append]; omega)
  have hsent : sentSess s2.sess s2.sess = [] := by
    rw [sentSess_eq (k := 0) (new := []) (by omega) ⟨by simp, fun _ _ => rfl⟩]
    rfl
  have hs3 := step_sess (s := s2) (e := e3) (c := s2.sess) hbox2 hn3 (by rw [hsent]; intro z hz; cases hz) (by
    rw [hsent]; have := h3.others; simp only [List.length_nil]; omega)
  rw [hsent, List.nil_append] at hs3
  have hre3 := hre2.step (e := e3) (v := .deliver) (by rw [Possible, hbox2]; simp) hs3
  refine ⟨{ s2 with box := [] }, x, ?_, by simpa only [List.append_assoc, List.cons_append, List.nil_append] using hre3, hlog2, hse2, ⟨hr.conn, hst2, hop2, has2, hr.chan, hw2, hr.owner, rfl⟩⟩
  rw [show ∀ a b c : Env × Ev, [a, b, c] = [a, b] ++ [c] from fun _ _ _ => rfl, run_append hrun2, run_cons hs3]
  rfl

/-! ## Examples -/

/-- A get endpoints request as other programs write it: the type id has its long form, the url and both arrays are null. -/
def nullRequest : List UInt8 := 2 :: (leBytes 2 0 ++ leBytes 4 428) ++ (Wire.wire (Session.reqHdr 0 31) ++ ([0xff, 0xff, 0xff, 0xff] ++
  ([0xff, 0xff, 0xff, 0xff] ++ [0xff, 0xff, 0xff, 0xff])))

/-- The same with empty arrays. -/
def plainRequest : List UInt8 := 2 :: (leBytes 2 0 ++ leBytes 4 428) ++ (Wire.wire (Session.reqHdr 0 31) ++ ([0, 0, 0, 0] ++
  ([0, 0, 0, 0] ++ [0, 0, 0, 0])))

def endpointsReq : UaGetEndpointsReq := { (Ua.init : UaGetEndpointsReq) with requestHdr := Session.reqHdr 0 31 }

theorem plain_says : Says (.getEndpoints endpointsReq) plainRequest :=
  ⟨_, _, ⟨2, leBytes 2 0 ++ leBytes 4 428, [], .numeric 0 428, ⟨[], [], rfl, rfl, rfl⟩, rfl⟩,
    ⟨_, _, Accepts.canon (Session.reqHdr 0 31) (Session.reqHdr_ok 0 31), ⟨[0, 0, 0, 0], _, ⟨by decide, .inl rfl⟩,
      ⟨[0, 0, 0, 0], [0, 0, 0, 0], ⟨by decide, .inl ⟨_, _, rfl, rfl, rfl⟩⟩, ⟨by decide, .inl ⟨_, _, rfl, rfl, rfl⟩⟩, rfl⟩, rfl⟩, rfl⟩, rfl⟩

theorem null_std : StdReq (.getEndpoints endpointsReq) nullRequest :=
  ⟨_, _, ⟨2, leBytes 2 0 ++ leBytes 4 428, [], .numeric 0 428, ⟨[], [], rfl, rfl, rfl⟩, rfl⟩,
    ⟨_, _, Accepts.canon (Session.reqHdr 0 31) (Session.reqHdr_ok 0 31), ⟨[0xff, 0xff, 0xff, 0xff], _, ⟨by decide, .inr ⟨rfl, rfl⟩⟩,
      ⟨[0xff, 0xff, 0xff, 0xff], [0xff, 0xff, 0xff, 0xff], ⟨by decide, .inr ⟨rfl, rfl, rfl⟩⟩, ⟨by decide, .inr ⟨rfl, rfl, rfl⟩⟩, rfl⟩, rfl⟩, rfl⟩, rfl⟩

theorem null_not_said (r : SReq) : ¬ Says r nullRequest := by
  intro h
  have h1 := Session.loaded (Session.dispatch_reads r h) [] (by decide +kernel) (fun _ => 0)
  have h2 : (match Session.dispatch ((Buf.create fun _ => 0).append (nullRequest ++ [])) with
    | .throws => true
    | _ => false) = true := by decide +kernel
  rw [h1] at h2
  cases h2

/-- The program would write the request differently. -/
example : plainRequest ≠ Session.bytesOf (.getEndpoints endpointsReq) := by decide +kernel

/-- C74: with both encodings the same happens. -/
example (s : Sessions) : Session.next s ⟨Session.env, ⟨3, 5, 9, invalidSuid⟩, plainRequest ++ [1, 2, 3]⟩ =
    Session.next s ⟨Session.env, ⟨3, 5, 9, invalidSuid⟩, Session.bytesOf (.getEndpoints endpointsReq) ++ []⟩ :=
  Session.C74_same_partial s _ _ plain_says (Session.Sendable.says (r := .getEndpoints endpointsReq)
    ⟨Session.reqHdr_ok 0 31, Session.str_ok _ (by decide), ⟨by decide, fun x hx => by cases hx⟩, ⟨by decide, fun x hx => by cases hx⟩⟩)
    (by decide +kernel) (by decide +kernel)

/-- C66, C74: the client of `connects` is answered. -/
example : ∃ s s' ans, Reach (fun _ => garbage) Channel.unset connects s ∧
    run s (five 1 (reads (chunk .msg 0x46 1 (request ⟨1, 77, 51, false⟩ 10 plainRequest))) calm calm calm calm) = .ok s' ∧
    Session.Fits 0 (.getEndpoints endpointsReq) ans ∧ Ready s' 1 1 ⟨1, 77, 52, false⟩ := by
  obtain ⟨s, h1, h2, h3, h4⟩ := connects_ready
  obtain ⟨s', ans, g1, g2, _, g4, _⟩ := C66_endpoints h1 h3 (reads_calm _) calm_calm calm_calm calm_calm calm_calm (flag := 0x46) (id := 10) _ plain_says
    (by decide +kernel) (h4 .msg 0x46 1 _ (by rw [request_length]; decide +kernel))
  exact ⟨s, s', ans, h1, g1, g4, g2.ready⟩

/-- C74: with null arrays it is not. -/
example : ∃ s s' x, Reach (fun _ => garbage) Channel.unset connects s ∧
    run s [(reads (chunk .msg 0x46 1 (request ⟨1, 77, 51, false⟩ 10 nullRequest)), .net (.linkData 1)), (calm, .deliver), (calm, .deliver)] = .ok s' ∧
    (s'.srv.conns 1).log = (s.srv.conns 1).log ++ [.up (.message 1 0x46 (request ⟨1, 77, 51, false⟩ 10 nullRequest ++ x))] ∧ s'.box = [] := by
  obtain ⟨s, h1, h2, h3, h4⟩ := connects_ready
  obtain ⟨s', x, g1, _, g3, _, g5⟩ := C74_null_remote_violated h1 h3 (reads_calm _) calm_calm calm_calm (flag := 0x46) (id := 10) null_std (null_not_said _)
    (by decide +kernel) (h4 .msg 0x46 1 _ (by rw [request_length]; decide +kernel))
  exact ⟨s, s', x, h1, g1, g3, g5.box⟩

/-- An activate request with a certificate of two bytes and no signature of it. -/
def certified : List UInt8 := Wire.wire (⟨⟨0, .numeric 467⟩, none, none⟩ : ExpandedNodeId) ++ (Wire.wire (Session.reqHdr 1 22) ++
  (Wire.wire (Ua.init : UaSignatureData) ++ ([1, 0, 0, 0] ++ ([2, 0, 0, 0, 0x80, 7] ++ [0xff, 0xff, 0xff, 0xff]) ++ ([0, 0, 0, 0] ++
    (Wire.wire (Ua.init : ExtensionObject) ++ Wire.wire (Ua.init : UaSignatureData))))))

theorem certified_std : Session.StdCertified { (Ua.init : UaActivateSessionReq) with requestHdr := Session.reqHdr 1 22 } ⟨[0x80, 7]⟩ ⟨[]⟩ certified :=
  ⟨_, _, ⟨1, [0] ++ leBytes 2 467, [], .four 0 467 (by decide) (by decide), ⟨[], [], rfl, rfl, rfl⟩, rfl⟩,
    ⟨_, _, Accepts.canon (Session.reqHdr 1 22) (Session.reqHdr_ok 1 22), ⟨_, _, Accepts.canon (Ua.init : UaSignatureData)
      ⟨Session.str_ok _ (by decide), Session.str_ok _ (by decide)⟩, ⟨_, _, ⟨[1, 0, 0, 0], _, rfl, ⟨[2, 0, 0, 0, 0x80, 7], [0xff, 0xff, 0xff, 0xff],
        ⟨by decide, .inl rfl⟩, ⟨by decide, .inr ⟨rfl, rfl⟩⟩, rfl⟩, rfl⟩, ⟨[0, 0, 0, 0], _, ⟨by decide, .inl ⟨_, _, rfl, rfl, rfl⟩⟩,
          ⟨_, _, Accepts.canon (Ua.init : ExtensionObject) Session.ext_ok, Accepts.canon (Ua.init : UaSignatureData)
            ⟨Session.str_ok _ (by decide), Session.str_ok _ (by decide)⟩, rfl⟩, rfl⟩, rfl⟩, rfl⟩, rfl⟩, rfl⟩

/-- C74: it is dropped. -/
example (s : Sessions) : Session.next s ⟨Session.env, ⟨3, 5, 9, invalidSuid⟩, certified ++ [9, 9]⟩ = .ok s :=
  Session.C74_certificate_violated s _ _ (by decide) certified_std (by decide +kernel)

end Stack

end Uscada.Ua
