import Verif.SegmentationProps
/-!
# C67: a Modbus transaction end to end

One client of this program talks to one session of this program: the client sends the oldest pending request, the session
forwards it to the application, the application answers, the session sends the answer, the client reports it.  The theorems
compose the client, the session and both codecs, so that nothing but the fields of the request and of the answer remains.
-/

namespace Uscada.Modbus

open AduStorage (Pending)
open Client (wordAt byteAt)

namespace Exchange

/-! ## Specification -/

/-- The pending requests with an answer the program supports (Modbus functions 3, 4, 5, 6 and 16 within their limits). -/
structure Sendable (p : Pending) : Prop where
  addr : p.addr ≤ 247
  transactId : p.transactId < 65536
  startItem : p.startItem < 65536
  data : p.data.length = p.numBytes
  bytes : p.numBytes ≤ 260
  func : ((p.func = 3 ∨ p.func = 4) ∧ p.numItems ≤ 125) ∨
    (p.func = 5 ∧ p.numItems = 0 ∧ (p.data = [0, 0] ∨ p.data = [0xFF, 0])) ∨
    (p.func = 6 ∧ p.numItems = 0 ∧ p.numBytes = 2) ∨
    (p.func = 16 ∧ p.numItems ≤ 123 ∧ p.numBytes = 2 * p.numItems)

/-- The meaning of a request: what the application has to be told. -/
def meaning (p : Pending) : ReqView where
  transactId := p.transactId
  addr := p.addr
  func := p.func
  startItem := p.startItem
  numItems := if p.func = 5 ∨ p.func = 6 then none else some p.numItems
  data := if p.func = 3 ∨ p.func = 4 then none else some p.data

/-- Answers an application may give to a request with function `func`: a Modbus error with any data, or the registers read
(whole registers), the value written (two bytes), or nothing of interest for a multiple write. -/
structure Suits (func : Nat) (r : AppRsp) : Prop where
  success : r.success = true
  error : r.error ∈ declaredErrors
  data : r.data.length ≤ 260
  fits : r.error = 0 →
    ((func = 3 ∨ func = 4) → r.data.length % 2 = 0 ∧ r.data.length ≤ 250) ∧
    (func = 5 → r.data = [0, 0] ∨ r.data = [0xFF, 0]) ∧
    (func = 6 → r.data.length = 2)

/-- What the caller is told. -/
def told (p : Pending) (r : AppRsp) : CRsp where
  clientId := p.clientId
  transactId := p.transactId
  success := true
  error := r.error
  data := if r.error ≠ 0 ∨ p.func = 16 then [] else r.data

/-- A client about to send the oldest of its pending requests. -/
structure Ready (c : Client) (ps : List Pending) : Prop where
  st : c.st = .send
  opened : c.opened = true
  timer : c.timer = true
  pending : c.pending = ps

/-! ## Frames -/

theorem framed_hdr {l r : List UInt8} {t n a f : Nat} (hl : l = hdr t n a f ++ r)
    (hn : n = r.length + 2) (h : l.length < 260) : Framed l := by
  subst hl
  have hlen : (hdr t n a f ++ r).length = 8 + r.length := by simp
  rw [hlen] at h
  refine ⟨?_, by omega⟩
  have e4 : (hdr t n a f ++ r).getD 4 0 = UInt8.ofNat (n / 256) := rfl
  have e5 : (hdr t n a f ++ r).getD 5 0 = UInt8.ofNat n := rfl
  unfold wordAt byteAt
  rw [e4, e5, hlen]
  simp only [UInt8.toNat_ofNat']
  omega

theorem framed_req {a : AduReq} (h : ReqOk a) : Framed (reqFrame a) := by
  obtain ⟨_, hc⟩ := h
  unfold reqFrame
  have hns : isReadFunc a.func → ¬ isSingleFunc a.func := by
    intro hf; rcases hf with h | h | h | h <;> rw [h] <;> decide
  have hnm : isReadFunc a.func → ¬ a.func = fPresetMulti := by
    intro hf; rcases hf with h | h | h | h <;> rw [h] <;> decide
  have hsm : isSingleFunc a.func → ¬ a.func = fPresetMulti := by
    intro hf; rcases hf with h | h <;> rw [h] <;> decide
  rcases hc with ⟨hf, _⟩ | ⟨hf, _⟩ | ⟨hf, hb, hl⟩
  · rw [if_neg (hnm hf), if_neg (hns hf), List.append_assoc]
    exact framed_hdr rfl (by simp [be16]) (by simp [be16])
  · rw [if_neg (hsm hf), if_pos hf, List.append_assoc]
    exact framed_hdr rfl (by simp [be16]) (by simp [be16])
  · rw [if_pos hf]
    simp only [List.append_assoc]
    exact framed_hdr rfl (by simp [be16]; omega) (by simp [be16]; omega)

theorem framed_rsp {a : AduRsp} (h : RspOk a) : Framed (rspFrame a) := by
  unfold rspFrame
  rcases h with hf | ⟨hf, hb, hl⟩ | ⟨hf, _⟩ | hf
  · rw [if_pos hf]
    exact framed_hdr rfl (by simp) (by simp)
  · rw [if_neg (by rcases hf with h | h <;> rw [h] <;> decide), if_pos hf, List.append_assoc]
    exact framed_hdr rfl (by simp; omega) (by simp; omega)
  · rw [if_neg (by rcases hf with h | h <;> rw [h] <;> decide), if_neg (by rcases hf with h | h <;> rw [h] <;> decide),
      if_pos hf, List.append_assoc]
    exact framed_hdr rfl (by simp [be16]) (by simp [be16])
  · rw [if_neg (by rw [hf]; decide), if_neg (by rw [hf]; decide), if_neg (by rw [hf]; decide), List.append_assoc]
    exact framed_hdr rfl (by simp [be16]) (by simp [be16])

theorem received_get (b : PduBuf) (hb : b.len = 0) (w : List UInt8) (i : Nat) (h : i < w.length) :
    (b.received w).buf i = w[i] := by
  simp [PduBuf.received, hb, memWrite, h]

/-! ## The request -/

theorem reqOk_of {p : Pending} (h : Sendable p) : ReqOk (Client.reqOfPending p) := by
  refine ⟨h.addr, ?_⟩
  have hd := h.data
  rcases h.func with ⟨hf, hn⟩ | ⟨hf, hn, hv⟩ | ⟨hf, hn, hb⟩ | ⟨hf, hn, hb⟩
  · refine .inl ⟨?_, ?_⟩
    · rcases hf with hf | hf
      · exact .inr (.inr (.inl hf))
      · exact .inr (.inr (.inr hf))
    · rw [show (Client.reqOfPending p).func = p.func from rfl, show (Client.reqOfPending p).numItems = p.numItems from rfl]
      rcases hf with hf | hf <;> rw [hf] <;> simp [pduLen, fReadCoil, fReadDiscrete, fReadHolding, fReadInput, fForceCoil, fPresetSingle] <;> omega
  · refine .inr (.inl ⟨.inl hf, hn, ?_, fun _ => ?_⟩)
    · show p.numBytes = 2
      rw [← hd]; rcases hv with hv | hv <;> rw [hv] <;> rfl
    · show p.data.getD 1 0 = 0 ∧ (p.data.getD 0 0 = 0 ∨ p.data.getD 0 0 = 0xFF)
      rcases hv with hv | hv <;> rw [hv] <;> simp
  · refine .inr (.inl ⟨.inr hf, hn, hb, fun h5 => ?_⟩)
    exact absurd (hf.symm.trans h5) (by decide)
  · refine .inr (.inr ⟨hf, ?_, ?_⟩)
    · show p.numBytes = p.numItems * 2
      omega
    · show p.numBytes ≤ 247
      omega

theorem memRead_getD (l : List UInt8) : memRead (fun i => l.getD i 0) 0 l.length = l := by
  apply List.ext_getElem
  · simp
  · intro i h1 h2
    simp [memRead, h2]

theorem view_of {p : Pending} (h : Sendable p) : (Client.reqOfPending p).view = meaning p := by
  have hd : memRead (fun i => p.data.getD i 0) 0 p.numBytes = p.data := by rw [← h.data]; exact memRead_getD _
  have e1 : isSingleFunc p.func ↔ (p.func = 5 ∨ p.func = 6) := Iff.rfl
  have e2 : isReadFunc p.func ↔ (p.func = 3 ∨ p.func = 4) := by
    have : isReadFunc p.func ↔ (p.func = 1 ∨ p.func = 2 ∨ p.func = 3 ∨ p.func = 4) := Iff.rfl
    rw [this]
    have := h.func
    omega
  unfold AduReq.view meaning Client.reqOfPending
  simp only [e1, e2, hd]

theorem numItems_lt {p : Pending} (h : Sendable p) : p.numItems < 65536 := by
  have := h.func; omega

/-- The client puts the oldest request on the link. -/
theorem client_sends {c : Client} {p : Pending} {ps : List Pending} (h : Ready c (p :: ps))
    (hR : ReqOk (Client.reqOfPending p)) (hd : p.data.length = p.numBytes) (hb : p.numBytes ≤ 260) (k : Bool) :
    ∃ c1, c.step (.timer true k) = .ok (c1, [.frame (reqFrame (Client.reqOfPending p))]) ∧ c1.Fresh p ∧
      c1.timer = true ∧ c1.pending = p :: ps := by
  obtain ⟨st, pending, pdu, timer, opened⟩ := c
  obtain ⟨h1, h2, h3, h4⟩ := h
  simp only at h1 h2 h3 h4
  subst h1; subst h2; subst h3; subst h4
  obtain ⟨b, ok, e1, _, e2, e3⟩ := encodeReq_eq (fun _ => 0) (Client.reqOfPending p)
    (Nat.le_of_eq hd.symm) hb
  have hok := e2.2 hR
  subst hok
  have hb := (e3 rfl).1.content
  refine ⟨Client.mk .receive (p :: ps) pdu.reset true true, ?_, ⟨rfl, rfl, rfl, rfl, _, rfl⟩, rfl, rfl⟩
  simp only [Client.step, if_true, Client.onTimer, Client.send_body, e1, Exec.ok_bind, hb]
  simp [Client.transit, Client.exit, Client.enter]

/-- The session that received the frame of a request. -/
theorem session_state {s : Session} (h : s.Fresh) {p : Pending} (hR : ReqOk (Client.reqOfPending p))
    (ht : p.transactId < 65536) (hs : p.startItem < 65536) (hn : p.numItems < 65536) :
    ∃ f, s.finalOut (reqFrame (Client.reqOfPending p)) = [.fwd f] ∧ f.view = (Client.reqOfPending p).view ∧
      (s.final (reqFrame (Client.reqOfPending p))).adu.view = (Client.reqOfPending p).view := by
  obtain ⟨k, a', e1, e2⟩ := parseReq_frame (s.pdu.received (reqFrame (Client.reqOfPending p))).buf _ s.adu hR
    ht hs hn (received_get _ h.len _)
  refine ⟨Session.fwdOf a', ?_, ?_, ?_⟩
  · unfold Session.finalOut Session.decoded
    simp only [e1, if_true]
  · rw [Session.view_fwdOf, e2]
  · show (parseReq (s.pdu.received (reqFrame (Client.reqOfPending p))).buf 0 s.adu).2.1.view = _
    rw [e1, e2]

/-! ## The answer -/

theorem rspOk_of {s : Session} {p : Pending} {r : AppRsp} (hp : Sendable p) (hv : s.adu.view = meaning p) (hr : Suits p.func r) :
    RspOk (s.rspOf r) := by
  have hf : s.adu.func = p.func := congrArg ReqView.func hv
  by_cases he : r.error ≠ 0
  · refine .inl ?_
    show (if r.error ≠ 0 then fError else s.adu.func) = fError
    rw [if_pos he]
  have he' : r.error = 0 := by omega
  have hfn : (s.rspOf r).func = p.func := by
    show (if r.error ≠ 0 then fError else s.adu.func) = p.func
    rw [if_neg he, hf]
  have hnb : (s.rspOf r).numBytes = r.data.length := rfl
  have hd : ∀ i, (s.rspOf r).data i = r.data.getD i 0 := fun _ => rfl
  obtain ⟨s1, s2, s3⟩ := hr.fits he'
  rcases hp.func with ⟨hf, _⟩ | ⟨hf, _⟩ | ⟨hf, _⟩ | ⟨hf, _⟩
  · refine .inr (.inl ⟨?_, ?_, ?_⟩)
    · rw [hfn]; exact hf
    · rw [hnb]; exact (s1 hf).1
    · rw [hnb]; have := (s1 hf).2; omega
  · refine .inr (.inr (.inl ⟨?_, ?_, fun _ => ?_⟩))
    · rw [hfn]; exact .inl hf
    · rw [hnb]; rcases s2 hf with h | h <;> rw [h] <;> rfl
    · rw [hd, hd]; rcases s2 hf with h | h <;> rw [h] <;> simp
  · refine .inr (.inr (.inl ⟨?_, ?_, fun h5 => ?_⟩))
    · rw [hfn]; exact .inr hf
    · rw [hnb]; exact s3 hf
    · rw [hfn, hf] at h5; exact absurd h5 (by decide)
  · refine .inr (.inr (.inr ?_))
    rw [hfn]; exact hf

/-- The session, for the requests of the specification. -/
theorem session_sendable {s : Session} (h : s.Fresh) {p : Pending} (hp : Sendable p) :
    ∃ f, s.finalOut (reqFrame (Client.reqOfPending p)) = [.fwd f] ∧ f.view = meaning p ∧
      (s.final (reqFrame (Client.reqOfPending p))).adu.view = meaning p := by
  rw [← view_of hp]
  exact session_state h (reqOk_of hp) hp.transactId hp.startItem (numItems_lt hp)

theorem session_cuts {s : Session} (h : s.Fresh) {w : List UInt8} (hF : Framed w) {o : List SOut} (ho : s.finalOut w = o)
    (cuts : List (List UInt8)) (hcut : cuts.flatten = w) (hne : ∀ x ∈ cuts, x ≠ []) :
    ∃ os, s.run (Session.pieces cuts) = .ok (s.final w, os) ∧ Session.outs os = o := by
  have hcs : cuts ≠ [] := by
    rintro rfl
    have h0 := hF.1
    rw [← hcut] at h0
    simp at h0
  obtain ⟨os, g1, g2⟩ := Session.seg_run h hF cuts [] (by simp [hcut]) hne hcs
  rw [Session.at_nil h] at g1
  exact ⟨os, g1, by rw [g2, ho]⟩

/-- A session that forwarded the request `p` and waits for the answer. -/
structure Asked (s : Session) (p : Pending) : Prop where
  st : s.st = .wait
  link : s.link = true
  timer : s.timer = true
  opened : s.opened = true
  cap : s.adu.dataCap = 260
  nb : s.adu.numBytes ≤ 255
  view : s.adu.view = meaning p

theorem asked_final {s : Session} (h : s.Fresh) {p : Pending} (hp : Sendable p) :
    Asked (s.final (reqFrame (Client.reqOfPending p))) p := by
  obtain ⟨f, _, _, hv⟩ := session_sendable h hp
  have hc := Session.inv_decoded (s := Session.mid s .wait (s.pdu.received (reqFrame (Client.reqOfPending p)))) h.cap h.nb
  exact ⟨rfl, h.link, h.timer, h.opened, hc.1, hc.2, hv⟩

/-- The session forwards the request. -/
theorem session_receives {s : Session} (h : s.Fresh) {p : Pending} (hp : Sendable p) :
    ∃ s1 f, s.step (.data (.ok (reqFrame (Client.reqOfPending p)))) = .ok (s1, [.fwd f]) ∧ f.view = meaning p ∧ Asked s1 p := by
  obtain ⟨f, h5, h6, _⟩ := session_sendable h hp
  have hF := framed_req (reqOk_of hp)
  have g0 := Session.seg_last (w := reqFrame (Client.reqOfPending p)) (p := []) (c := reqFrame (Client.reqOfPending p)) h (by simp) hF
  rw [Session.at_nil h, h5] at g0
  exact ⟨_, f, g0, h6, asked_final h hp⟩

theorem fresh_ready {s : Session} {p : Pending} (h : Asked s p) : (Session.ready s).Fresh :=
  ⟨rfl, h.link, h.timer, rfl, h.opened, rfl, rfl, h.cap, h.nb⟩

/-- The session sends the answer and is ready for the next request. -/
theorem session_sends {s : Session} {p : Pending} (h : Asked s p) (hp : Sendable p) {r : AppRsp} (hr : Suits p.func r)
    (ht : r.transactId = p.transactId) :
    ∃ s2, s.step (.rsp r true) = .ok (s2, [.frame (rspFrame (s.rspOf r))]) ∧ s2.Fresh := by
  have hR := rspOk_of hp h.view hr
  have hF : Framed (rspFrame (s.rspOf r)) := framed_rsp hR
  obtain ⟨b, ok, e1, _, e2, e3⟩ := encodeRsp_eq (fun _ => 0) (s.rspOf r) hr.data
  have hok := e2.2 hR
  subst hok
  obtain ⟨e3, _⟩ := e3 rfl
  have hval : isAduValid b = true := by
    have hA : maxAduLen = 260 := rfl
    have h4 := Client.wordAt_content b 4 (by rw [e3.2.1]; have := hF.1; omega)
    rw [e3.content] at h4
    have hl := e3.2.1
    obtain ⟨f1, f2⟩ := hF
    unfold beAt at h4
    simp only [Nat.reduceAdd] at h4
    simp [isAduValid, aduPktLen, aduHdrLen, aduLenOffset, hA]
    omega
  have hid : s.adu.transactId = p.transactId := congrArg ReqView.transactId h.view
  have hsend : s.send r true = .ok ([.frame (rspFrame (s.rspOf r))], .done) := by
    rw [Session.send_body]
    rw [if_neg (by rw [hid, ht]; simp), if_neg (by simp [hr.success]),
      if_neg (by have := hr.data; have hA : maxAduLen = 260 := rfl; omega), e1]
    simp only [Exec.ok_bind, Bool.true_eq_false, if_false, hval, h.link, h.opened, if_true, and_self, e3.content, Exec.pure_eq]
  refine ⟨Session.ready s, ?_, fresh_ready h⟩
  simp only [Session.step, Session.onRsp, h.st, hsend, Exec.ok_bind]
  rw [Session.transit_connected (by rw [h.st]; decide) h.timer]
  simp

/-- An answer the application marks as failed is not sent. -/
theorem session_declines {s : Session} {p : Pending} (h : Asked s p) {r : AppRsp} (hr : r.success = false) (k : Bool) :
    ∃ s2, s.step (.rsp r k) = .ok (s2, []) ∧ s2.Fresh := by
  have hsend : s.send r k = .ok ([], .done) := by
    rw [Session.send_body]
    split
    · rfl
    · rfl
  refine ⟨Session.ready s, ?_, fresh_ready h⟩
  simp only [Session.step, Session.onRsp, h.st, hsend, Exec.ok_bind]
  rw [Session.transit_connected (by rw [h.st]; decide) h.timer]
  simp

/-- `parseRsp_frame` without a bound for an item count that is not used. -/
theorem parseRsp_frame' (m : Mem) (a a0 : AduRsp) (hR : RspOk a)
    (ht : a.transactId < 65536) (haddr : a.addr < 256) (hs : a.startItem < 65536)
    (hn : a.func = fPresetMulti → a.numItems < 65536) (he : a.error ∈ declaredErrors)
    (hby : ∀ i, (h : i < (rspFrame a).length) → m i = (rspFrame a)[i]) :
    ∃ k a', parseRsp m 0 a0 = (k, a', true) ∧ a'.view = a.view := by
  by_cases hm : a.func = fPresetMulti
  · exact parseRsp_frame m a a0 hR ht haddr hs (hn hm) he hby
  have e1 : rspFrame { a with numItems := 0 } = rspFrame a := by
    unfold rspFrame
    dsimp only
    rcases hR with h | ⟨h, _⟩ | ⟨h, _⟩ | h
    · rw [if_pos h, if_pos h]
    · simp only [if_pos h]
    · simp only [if_pos h]
    · exact absurd h hm
  have e2 : AduRsp.view { a with numItems := 0 } = a.view := by
    unfold AduRsp.view
    simp only [if_neg hm]
  rw [← e2]
  exact parseRsp_frame m { a with numItems := 0 } a0 hR ht haddr hs (by show 0 < 65536; omega) he (by rw [e1]; exact hby)

theorem parseRsp_multi (m : Mem) (a0 : AduRsp) (h : (parseRsp m 0 a0).2.1.func = fPresetMulti) :
    (parseRsp m 0 a0).2.1.numBytes = a0.numBytes := by
  have k1 : ¬ isRegFunc fPresetMulti := by decide
  have k2 : ¬ isSingleFunc fPresetMulti := by decide
  revert h
  unfold parseRsp
  dsimp only
  repeat' split
  all_goals intro h
  all_goals try rfl
  all_goals simp only at h
  all_goals simp only [h] at *
  all_goals contradiction

/-- The client reports the answer and turns to the next request. -/
theorem client_reports {c : Client} {p : Pending} {ps : List Pending} (h : c.Fresh p) (hp : c.pending = p :: ps)
    {a : AduRsp} (hR : RspOk a) (hid : a.transactId = p.transactId) (hidl : a.transactId < 65536)
    (had : a.addr = p.addr) (hadl : a.addr < 256) (hs : a.startItem < 65536)
    (hn : a.func = fPresetMulti → a.numItems < 65536) (he : a.error ∈ declaredErrors) (hf : a.func = fError ∨ a.func = p.func) :
    ∃ c2, c.step (.data (.ok (rspFrame a))) =
        .ok (c2, [.rsp ⟨p.clientId, p.transactId, true, if a.func = fError then a.error else 0,
          if a.func = fError ∨ a.func = fPresetMulti then [] else memRead a.data 0 a.numBytes⟩]) ∧
      Ready c2 ps := by
  have hF := framed_rsp hR
  generalize hw : rspFrame a = w at hF
  have hA : maxAduLen = 260 := rfl
  obtain ⟨k1, k2⟩ := Client.frame_checks (x := w) (rest := []) h (by simp) hF
  obtain ⟨k3, k4, k5⟩ := k2 (by have := hF.1; omega)
  obtain ⟨k, a', e1, e2⟩ := parseRsp_frame' (c.pdu.received w).buf a Client.blankRsp hR hidl hadl hs hn he
    (by subst hw; exact received_get _ h.len _)
  have v1 : a'.transactId = a.transactId := congrArg RspView.transactId e2
  have v2 : a'.addr = a.addr := congrArg RspView.addr e2
  have v3 : a'.func = a.func := congrArg RspView.func e2
  have v4 : a.func = fError → a'.error = a.error := by
    intro hm
    have := congrArg RspView.error e2
    simp only [AduRsp.view, v3, if_pos hm] at this
    exact Option.some.inj this
  have v5 : a.func = fPresetMulti → a'.numBytes = 0 := by
    intro hm
    have := parseRsp_multi (c.pdu.received w).buf Client.blankRsp
    rw [e1] at this
    exact this (v3.trans hm)
  have v6 : isRegFunc a.func ∨ isSingleFunc a.func → memRead a'.data 0 a'.numBytes = memRead a.data 0 a.numBytes := by
    intro hm
    have := congrArg RspView.data e2
    simp only [AduRsp.view, v3, if_pos hm] at this
    exact Option.some.inj this
  have hrec : c.receive (.ok w) = (Client.mid c (c.pdu.received w)).evaluate p := by
    have := Client.mid_receive h [] w (by simp) (by simp; have := hF.2; omega)
    rw [Client.mid_nil] at this
    simpa using this
  have hpos : (c.pdu.received w).pos = 0 := h.pos
  have hpdu : (Client.mid c (c.pdu.received w)).pdu = c.pdu.received w := rfl
  have hst : c.st = .receive := h.st
  have hop : c.opened = true := h.opened
  have hev : ∃ b, (Client.mid c (c.pdu.received w)).evaluate p = .ok (Client.mid c b,
      [.rsp ⟨p.clientId, p.transactId, true, if a.func = fError then a.error else 0,
          if a.func = fError ∨ a.func = fPresetMulti then [] else memRead a.data 0 a.numBytes⟩], .done) := by
    refine ⟨{ c.pdu.received w with pos := (c.pdu.received w).pos + k }, ?_⟩
    unfold Client.evaluate Client.evaluateIn
    rw [hpdu, if_neg (mt k1.1 (by have := hF.1; omega)), if_neg (by rw [k3]; simp),
      if_neg (mt k4.1 (by have := hF.1; omega)), if_neg (mt k5.1 (by omega)), decodeRsp_eq _ _ (by omega), hpos, e1]
    simp only [Exec.ok_bind, Bool.true_eq_false, if_false, Exec.pure_eq]
    rw [if_neg (by rw [v1, hid]; simp), if_neg (by rw [v2, had]; simp), v3]
    by_cases hm : a.func = fError
    · rw [if_pos hm, if_pos hm, if_pos (.inl hm), v4 hm]
      rfl
    · rw [if_neg hm, if_neg hm]
      rw [if_neg (by rcases hf with hf | hf; exact absurd hf hm; rw [hf]; simp), v1, hid]
      by_cases hm2 : a.func = fPresetMulti
      · rw [if_pos (.inr hm2), v5 hm2]
        rfl
      · rw [if_neg (by simp [hm, hm2]), v6 (by
          rcases hR with h | ⟨h, _⟩ | ⟨h, _⟩ | h
          · exact absurd h hm
          · exact .inl h
          · exact .inr h
          · exact absurd h hm2)]
        rfl
  obtain ⟨b, hev⟩ := hev
  refine ⟨(Client.mid c b).transit .send, ?_, ?_⟩
  · simp only [Client.step, Client.onData, hst, hrec, hev, Exec.ok_bind, Exec.pure_eq]
  · refine ⟨?_, ?_, ?_, ?_⟩ <;>
      simp [Client.transit, Client.mid, hst, hop, hp, Client.exit, Client.enter]

/-- The bytes `w` make a client that waits for the answer to `p` report `r`. -/
structure Carries (p : Pending) (r : AppRsp) (w : List UInt8) : Prop where
  framed : Framed w
  told : ∀ (c : Client) (ps : List Pending), c.Fresh p → c.pending = p :: ps →
    ∃ c2, c.step (.data (.ok w)) = .ok (c2, [.rsp (told p r)]) ∧ Ready c2 ps

theorem carries {s : Session} {p : Pending} (h : Asked s p) (hp : Sendable p) {r : AppRsp} (hr : Suits p.func r)
    (ht : r.transactId = p.transactId) : Carries p r (rspFrame (s.rspOf r)) := by
  have hR := rspOk_of hp h.view hr
  refine ⟨framed_rsp hR, ?_⟩
  intro c ps h2 h4
  have va : s.adu.addr = p.addr := congrArg ReqView.addr h.view
  have vf : s.adu.func = p.func := congrArg ReqView.func h.view
  have vs : s.adu.startItem = p.startItem := congrArg ReqView.startItem h.view
  have vn : s.adu.func = fPresetMulti → s.adu.numItems < 65536 := by
    intro hm
    have := congrArg ReqView.numItems h.view
    have h16 : p.func = 16 := vf.symm.trans hm
    simp only [AduReq.view, meaning, hm, h16] at this
    have h0 : some s.adu.numItems = some p.numItems := this
    rw [Option.some.inj h0]
    exact numItems_lt hp
  have hfn : (s.rspOf r).func = if r.error ≠ 0 then fError else p.func := by rw [← vf]; rfl
  obtain ⟨c2, g3, g4⟩ := client_reports (ps := ps) h2 h4 hR ht
    (by rw [show (s.rspOf r).transactId = r.transactId from rfl, ht]; exact hp.transactId)
    va (by rw [show (s.rspOf r).addr = p.addr from va]; have := hp.addr; omega)
    (by rw [show (s.rspOf r).startItem = p.startItem from vs]; exact hp.startItem)
    (by
      intro hm
      apply vn
      rw [hfn] at hm
      split at hm
      · exact absurd hm (by decide)
      · rw [vf]; exact hm)
    hr.error (by rw [hfn]; split <;> simp)
  refine ⟨c2, ?_, g4⟩
  rw [g3]
  have hne : p.func ≠ fError := by
    have := hp.func
    have h0 : fError = 0x8f := rfl
    omega
  have hdat : memRead (s.rspOf r).data 0 (s.rspOf r).numBytes = r.data := memRead_getD _
  have h16 : fPresetMulti = 16 := rfl
  unfold told
  rw [hdat, hfn]
  by_cases he : r.error ≠ 0
  · rw [if_pos (show r.error ≠ 0 ∨ p.func = 16 from .inl he)]
    simp only [if_pos he, true_or, if_true]
    rfl
  · simp only [hne, false_or, if_false, h16, he]
    simp only [ne_eq, Decidable.not_not] at he
    rw [he]

/-! ## C67 -/

/-- C67: a request goes out in one frame; the session forwards exactly its fields, however the frame is cut; whatever suitable
answer the application gives goes back in one frame; the client reports exactly that answer to the caller, if the frame arrives
whole or in the cuts of `C12_client_safe_cuts_partial`; both are then ready for the next request.  Missing: functions 1 and 2
(`C67_bit_reads_violated`) and other cuts of the answer (`C12_client_bad_cut_fails`). -/
theorem C67_exchange_partial {c : Client} {s : Session} {p : Pending} {ps : List Pending} (hc : Ready c (p :: ps))
    (hs : s.Fresh) (hp : Sendable p) :
    ∃ w c1 s1 f, c.step (.timer true true) = .ok (c1, [.frame w]) ∧
      (∀ cuts : List (List UInt8), cuts.flatten = w → (∀ x ∈ cuts, x ≠ []) →
        ∃ os, s.run (Session.pieces cuts) = .ok (s1, os) ∧ Session.outs os = [.fwd f]) ∧
      f.view = meaning p ∧
      ∀ r : AppRsp, Suits p.func r → r.transactId = p.transactId →
        ∃ w' c2 s2, s1.step (.rsp r true) = .ok (s2, [.frame w']) ∧ s2.Fresh ∧
          c1.step (.data (.ok w')) = .ok (c2, [.rsp (told p r)]) ∧ Ready c2 ps ∧
          ∀ cuts : List (List UInt8), cuts.flatten = w' →
            (∀ n, n < cuts.length → 0 < n → Client.SafePrefix w' (cuts.take n).flatten.length) →
            ∃ os, c1.run (cuts.map fun d => .data (.ok d)) = .ok (c2, os) ∧ os.flatMap Prod.snd = [.rsp (told p r)] := by
  obtain ⟨c1, h1, h2, h3, h4⟩ := client_sends hc (reqOk_of hp) hp.data hp.bytes true
  obtain ⟨f, h5, h6, h7⟩ := session_sendable hs hp
  have hF := framed_req (reqOk_of hp)
  have ha := asked_final hs hp
  refine ⟨_, c1, s.final (reqFrame (Client.reqOfPending p)), f, h1, session_cuts hs hF h5, h6, ?_⟩
  intro r hr ht
  obtain ⟨s2, g1, g2⟩ := session_sends ha hp hr ht
  have hk := carries ha hp hr ht
  obtain ⟨c2, k1, k2⟩ := hk.told c1 ps h2 h4
  exact ⟨_, c2, s2, g1, g2, k1, k2, fun cuts hcut hsafe => Client.C12_client_safe_cuts_partial h2 hk.framed cuts hcut hsafe _ _ k1⟩

/-! ## Many requests -/

/-- What is on the wire after a step of the client. -/
def framesOf (o : List COut) : List UInt8 := o.flatMap fun | .frame w => w | _ => []

/-- What the callers are told in a step of the client. -/
def rspsOf (o : List COut) : List CRsp := o.filterMap fun | .rsp r => some r | _ => none

/-- The application answers what the session forwards. -/
def serve (app : ReqView → AppRsp) : Session → List SOut → Exec (Session × List UInt8)
  | s, [] => .ok (s, [])
  | s, .fwd f :: os => do
    let (s, o) ← s.step (.rsp (app f.view) true)
    let (s, w) ← serve app s os
    pure (s, (o.flatMap fun | .frame w => w | _ => []) ++ w)
  | s, _ :: os => serve app s os

/-- The timer of the client expires, and everything that follows from it happens: the two components, the application and the
wire between them. -/
def trade (app : ReqView → AppRsp) (c : Client) (s : Session) : Exec (Client × Session × List CRsp) := do
  let (c, o) ← c.step (.timer true true)
  let (s, os) ← s.step (.data (.ok (framesOf o)))
  let (s, w) ← serve app s os
  let (c, o') ← c.step (.data (.ok w))
  pure (c, s, rspsOf o ++ rspsOf o')

def trades (app : ReqView → AppRsp) : Nat → Client → Session → Exec (Client × Session × List CRsp)
  | 0, c, s => .ok (c, s, [])
  | n + 1, c, s => do
    let (c, s, r) ← trade app c s
    let (c, s, rs) ← trades app n c s
    pure (c, s, r ++ rs)

/-- C67: any number of pending requests is answered one after the other, each caller gets the answer of the application to their
own request, and nothing else is reported.  Missing: as for `C67_exchange_partial`. -/
theorem C67_batch_partial (app : ReqView → AppRsp) (ps : List Pending) (hps : ∀ p ∈ ps, Sendable p)
    (happ : ∀ p ∈ ps, Suits p.func (app (meaning p)) ∧ (app (meaning p)).transactId = p.transactId) :
    ∀ {c : Client} {s : Session}, Ready c ps → s.Fresh →
      ∃ c' s', trades app ps.length c s = .ok (c', s', ps.map fun p => told p (app (meaning p))) ∧ Ready c' [] ∧ s'.Fresh := by
  induction ps with
  | nil => exact fun hc hs => ⟨_, _, rfl, hc, hs⟩
  | cons p ps ih =>
    intro c s hc hs
    have hp := hps p (by simp)
    obtain ⟨w, c1, s1, f, h1, h2, h3, h4⟩ := C67_exchange_partial hc hs hp
    have happ' := happ p (by simp)
    obtain ⟨w', c2, s2, h5, h6, h7, h8, _⟩ := h4 (app (meaning p)) happ'.1 happ'.2
    have hw : w ≠ [] := by
      obtain ⟨c1', e1, _⟩ := client_sends hc (reqOk_of hp) hp.data hp.bytes true
      rw [e1] at h1
      have hF := (framed_req (reqOk_of hp)).1
      cases h1
      intro h0
      rw [h0] at hF
      simp at hF
    obtain ⟨os, g1, g2⟩ := h2 [w] (by simp) (by simpa using hw)
    have g3 : s.step (.data (.ok w)) = .ok (s1, [.fwd f]) := by
      simp only [Session.pieces, List.map_cons, List.map_nil, Session.run] at g1
      cases hst : s.step (.data (.ok w)) with
      | ok x =>
        obtain ⟨a, b⟩ := x
        rw [hst] at g1
        simp only [Exec.ok_bind, Exec.pure_eq, Exec.ok.injEq, Prod.mk.injEq] at g1
        obtain ⟨g1, g4⟩ := g1
        subst g4
        simp [Session.outs] at g2
        rw [g1, g2]
      | throws => rw [hst] at g1; exact absurd g1 (by simp)
      | abort => rw [hst] at g1; exact absurd g1 (by simp)
      | ub => rw [hst] at g1; exact absurd g1 (by simp)
    obtain ⟨c3, s3, k1, k2, k3⟩ := ih (fun q hq => hps q (by simp [hq])) (fun q hq => happ q (by simp [hq])) h8 h6
    refine ⟨c3, s3, ?_, k2, k3⟩
    have ht : trade app c s = .ok (c2, s2, [told p (app (meaning p))]) := by
      unfold trade
      rw [h1]
      have e1 : framesOf [.frame w] = w := by simp [framesOf]
      simp only [Exec.ok_bind, e1, g3, serve, h3, h5, Exec.pure_eq, List.flatMap_cons, List.flatMap_nil, List.append_nil, h7]
      rfl
    simp only [List.length_cons, trades, ht, k1, Exec.ok_bind, Exec.pure_eq, List.map_cons, List.singleton_append]

/-! ## Bit reads -/

/-- Violation of C67: the client sends and the session forwards reads of coils and discrete inputs, but whatever the application
answers without an error is dropped, and the caller is told a failure when the time is over. -/
theorem C67_bit_reads_violated {c : Client} {s : Session} {p : Pending} {ps : List Pending} (hc : Ready c (p :: ps))
    (hs : s.Fresh) (hf : p.func = 1 ∨ p.func = 2) (ha : p.addr ≤ 247) (ht : p.transactId < 65536) (hst : p.startItem < 65536)
    (hn : p.numItems ≤ 2008) (hd : p.data.length = p.numBytes) (hb : p.numBytes ≤ 260) :
    ∃ w c1 s1 f, c.step (.timer true true) = .ok (c1, [.frame w]) ∧
      s.run (Session.pieces [w]) = .ok (s1, [(.data (.ok w), [.fwd f])]) ∧
      f.transactId = p.transactId ∧ f.addr = p.addr ∧ f.func = p.func ∧ f.startItem = p.startItem ∧ f.numItems = p.numItems ∧
      (∀ r : AppRsp, r.error = 0 → r.data.length ≤ 260 → ∃ s2, s1.step (.rsp r true) = .ok (s2, [])) ∧
      ∃ c2, c1.step (.timer true true) = .ok (c2, [.rsp ⟨p.clientId, p.transactId, false, 0, []⟩]) ∧ Ready c2 ps := by
  have hR : ReqOk (Client.reqOfPending p) := by
    refine ⟨ha, .inl ⟨?_, ?_⟩⟩
    · rcases hf with hf | hf
      · exact .inl hf
      · exact .inr (.inl hf)
    · rw [show (Client.reqOfPending p).func = p.func from rfl, show (Client.reqOfPending p).numItems = p.numItems from rfl]
      rcases hf with hf | hf <;> rw [hf] <;> simp [pduLen, fReadCoil, fReadDiscrete, fForceCoil, fPresetSingle] <;> omega
  obtain ⟨c1, h1, h2, h3, h4⟩ := client_sends hc hR hd hb true
  obtain ⟨f, h5, h6, h7⟩ := session_state hs hR ht hst (by omega)
  have hF := framed_req hR
  generalize reqFrame (Client.reqOfPending p) = w at h1 h5 h7 hF
  have g0 := Session.seg_last (w := w) (p := []) (c := w) hs (by simp) hF
  rw [Session.at_nil hs, h5] at g0
  have fv : f.func = p.func := congrArg ReqView.func h6
  refine ⟨w, c1, s.final w, f, h1, ?_, congrArg ReqView.transactId h6, congrArg ReqView.addr h6, fv,
    congrArg ReqView.startItem h6, ?_, ?_, ?_⟩
  · simp only [Session.pieces, List.map_cons, List.map_nil, Session.run, g0, Exec.ok_bind, Exec.pure_eq]
  · have h8 := congrArg ReqView.numItems h6
    have n1 : ¬ (f.func = 5 ∨ f.func = 6) := by omega
    have n2 : ¬ isSingleFunc (Client.reqOfPending p).func := by
      show ¬ (p.func = 5 ∨ p.func = 6)
      omega
    simp only [FwdReq.view, AduReq.view, if_neg n1, if_neg n2] at h8
    exact Option.some.inj h8
  · intro r he hlen
    have hfn : (s.final w).adu.func = p.func := congrArg ReqView.func h7
    have hu := (C09_bit_reads_unsupported (fun _ => 0) ((s.final w).rspOf r) (by
      show (if r.error ≠ 0 then fError else (s.final w).adu.func) = _ ∨ (if r.error ≠ 0 then fError else (s.final w).adu.func) = _
      rw [if_neg (by omega), hfn]
      exact hf)).1
    have hsend : (s.final w).send r true = .ok ([], .done) := by
      rw [Session.send_body]
      split
      · rfl
      split
      · rfl
      rw [if_neg (by have hA : maxAduLen = 260 := rfl; omega), hu]
      rfl
    have hw : (s.final w).st = .wait := rfl
    refine ⟨Session.ready (s.final w), ?_⟩
    simp only [Session.step, Session.onRsp, hw, hsend, Exec.ok_bind]
    rw [Session.transit_connected (s := s.final w) (by rw [hw]; decide) hs.timer]
    simp
  · obtain ⟨st, pending, pdu, timer, opened⟩ := c1
    have e1 : st = .receive := h2.st
    have e2 : opened = true := h2.opened
    simp only at h3 h4
    subst h3; subst h4; subst e1; subst e2
    refine ⟨Client.mk .send ps pdu true true, ?_, rfl, rfl, rfl, rfl⟩
    simp [Client.step, Client.onTimer, Client.transit, Client.exit, Client.enter, Client.rspError]

/-! ## Non-vacuity -/

/-- A client that was started, connected and given requests. -/
def started (rs : List CallerReq) : Exec Client := do
  let (c, _) ← (Client.create fun _ => 0).run ([.start true, .connected] ++ rs.map .req)
  pure c

/-- Every client that is connected and given requests is ready with them. -/
theorem ready_req {c : Client} (hst : c.st = .connected) (ho : c.opened = true) (hp : c.pending = []) (r : CallerReq) (d : List UInt8)
    (hr : r.data = some d) (hl : r.numBytes ≤ d.length) (hn : r.numBytes ≤ 260) :
    ∃ c', c.step (.req r) = .ok (c', []) ∧ Ready c' [AduStorage.pendingOf r] := by
  obtain ⟨st, pending, pdu, timer, opened⟩ := c
  simp only at hst ho hp
  subst hst; subst ho; subst hp
  have hA : maxAduLen = 260 := rfl
  refine ⟨Client.mk .send [AduStorage.pendingOf r] pdu true true, ?_, rfl, rfl, rfl, rfl⟩
  simp [Client.step, Client.storePush, hr, hl, hn, Client.onReq, Client.transit, Client.exit, Client.enter, AduStorage.capacity, hA]

def sampleReqs : List CallerReq :=
  [{ clientId := 1, transactId := 7, func := 3, addr := 9, startItem := 4, numItems := 2, numBytes := 0, data := some [] },
   { clientId := 2, transactId := 8, func := 16, addr := 9, startItem := 4, numItems := 2, numBytes := 4, data := some [1, 2, 3, 4] },
   { clientId := 3, transactId := 9, func := 6, addr := 9, startItem := 4, numItems := 0, numBytes := 2, data := some [5, 6] },
   { clientId := 4, transactId := 10, func := 4, addr := 9, startItem := 4, numItems := 1, numBytes := 0, data := some [] }]

/-- An application: error 2 for input registers, the registers [1, 2, …] and echoes otherwise. -/
def sampleApp (v : ReqView) : AppRsp :=
  { transactId := v.transactId, error := if v.func = 4 then 2 else 0, success := true,
    data := if v.func = 3 then [1, 2, 3, 4] else v.data.getD [] }

/-- Four callers and what they are told. -/
example : (do
    let c ← started sampleReqs
    let (s, _) ← (Session.create (fun _ => 0) sampleReq).step .start
    let (_, _, rs) ← trades sampleApp 4 c s
    pure rs) = .ok
      [⟨1, 7, true, 0, [1, 2, 3, 4]⟩, ⟨2, 8, true, 0, []⟩, ⟨3, 9, true, 0, [5, 6]⟩, ⟨4, 10, true, 2, []⟩] := by
  decide +kernel

/-- The requests and the answers are in the specification. -/
example : ∀ r ∈ sampleReqs, Sendable (AduStorage.pendingOf r) ∧
    Suits r.func (sampleApp (meaning (AduStorage.pendingOf r))) ∧
    (sampleApp (meaning (AduStorage.pendingOf r))).transactId = r.transactId := by
  intro r hr
  simp only [sampleReqs, List.mem_cons, List.not_mem_nil, or_false] at hr
  rcases hr with h | h | h | h <;> subst h <;> refine ⟨?_, ?_, rfl⟩ <;> constructor <;>
    simp [AduStorage.pendingOf, sampleApp, meaning, declaredErrors]

/-- A read of coils is not answered. -/
example : (do
    let c ← started [{ clientId := 1, transactId := 7, func := 1, addr := 9, startItem := 4, numItems := 8, numBytes := 0, data := some [] }]
    let (s, _) ← (Session.create (fun _ => 0) sampleReq).step .start
    let (c, _, rs) ← trades (fun v => { transactId := v.transactId, error := 0, success := true, data := [0xA5] }) 1 c s
    let (_, o) ← c.step (.timer true true)
    pure (rs ++ rspsOf o)) = .ok [⟨1, 7, false, 0, []⟩] := by
  decide +kernel

end Exchange

end Uscada.Modbus
