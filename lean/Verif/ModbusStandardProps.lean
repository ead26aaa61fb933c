import Verif.ModbusStandard
/-!
# C75: sessions and clients against the Modbus application protocol
-/

namespace Uscada.Modbus

open AduStorage (Pending)
open Client (wordAt byteAt swapPairs)

namespace Standard

/-! ## What a session hears -/

theorem session_hears {s : Session} (h : s.Fresh) {w : List UInt8} (hF : Framed w) (cuts : List (List UInt8)) (hc : cuts.flatten = w)
    (hne : ∀ x ∈ cuts, x ≠ []) :
    ∃ os, s.run (Session.pieces cuts) = .ok (s.final w, os) ∧
      (AcceptableReq w → (s.final w).adu.view = frameReq w ∧ ∃ f, Session.outs os = [.fwd f] ∧ f.view = frameReq w) ∧
      (¬ AcceptableReq w → Session.outs os = []) := by
  obtain ⟨os, h1, h2⟩ := Exchange.session_cuts h hF rfl cuts hc hne
  have hwl : 6 ≤ w.length := by have := hF.1; omega
  have hcont : (s.pdu.received w).content = w := by
    rw [Client.content_received]
    have : s.pdu.content = [] := by
      apply List.eq_nil_of_length_eq_zero
      simp [PduBuf.content, h.len]
    rw [this, List.nil_append]
  have hl : (s.pdu.received w).len = w.length := by simp [PduBuf.received, h.len]
  have h4 : beAt (s.pdu.received w).buf 4 = wordAt w 4 := by
    have := beAt_prefix s.pdu h.len w [] hwl
    simpa using this
  have hd := Session.decoded_spec { s with pdu := s.pdu.received w } (by dsimp only; omega)
    (by dsimp only; have := hF.1; omega) (by dsimp only; have := hF.1; have := hF.2; omega)
  dsimp only at hd
  rw [hcont] at hd
  refine ⟨os, h1, ?_, ?_⟩
  · intro ha
    have hk := hd.1.2 ha
    refine ⟨(hd.2 hk).1, Session.fwdOf ({ s with pdu := s.pdu.received w } : Session).decoded.adu, ?_, (hd.2 hk).1⟩
    rw [h2]
    unfold Session.finalOut
    rw [if_pos hk]
  · intro ha
    rw [h2]
    unfold Session.finalOut
    rw [if_neg (mt hd.1.1 ha)]

/-! ## Answers -/

theorem start_eq (r : Request) (t u t' u' : Nat) : (r.view t u).startItem = (r.view t' u').startItem := by
  cases r <;> rfl

theorem rspFrame_answer {a : AduRsp} {r : Request} {regs : List Nat} {tid unit : Nat} (hv : r.Near) (hfit : r.Fits regs)
    (hb : r.bits = false) (hon : r.coilOn = false) (ht : a.transactId = tid) (ha : a.addr = unit) (hf : a.func = r.code)
    (hs : a.startItem = (r.view tid unit).startItem) (hn : ∀ s vs, r = .writeRegisters s vs → a.numItems = vs.length)
    (hnb : a.numBytes = (r.reply regs).length) (hd : ∀ i, a.data i = (r.reply regs).getD i 0) :
    rspFrame a = onLink tid unit (r.answer regs) ∧ RspOk a := by
  subst ht ha
  have read : ∀ c : Nat, (c = 3 ∨ c = 4) → a.func = c → regs.length ≤ 125 → a.numBytes = 2 * regs.length →
      (∀ i, a.data i = (regs.flatMap host).getD i 0) →
      rspFrame a = onLink a.transactId a.addr (UInt8.ofNat c :: UInt8.ofNat (2 * regs.length) :: regs.flatMap word) ∧ RspOk a := by
    intro c hc hf hl hn hd
    have hr : isRegFunc a.func := by rw [hf]; exact hc
    have hne : a.func ≠ fError := by rw [hf]; rcases hc with h | h <;> rw [h] <;> decide
    refine ⟨?_, .inr (.inl ⟨hr, by omega, by omega⟩)⟩
    unfold rspFrame
    rw [if_neg hne, if_pos hr, hn, show 2 * regs.length / 2 = regs.length by omega,
      regBytes_hosts regs a.data 0 (by intro k _; rw [Nat.zero_add]; exact hd k), hf, onLink_hdr _ _ c _ rfl]
    simp only [List.length_cons, length_words, List.append_assoc]
    rw [show 3 + 2 * regs.length = 2 * regs.length + 1 + 2 by omega]
    rfl
  have single : ∀ c s v : Nat, (c = 5 ∨ c = 6) → a.func = c → a.startItem = s → a.numBytes = 2 → v < 65536 →
      (∀ i, a.data i = (host v).getD i 0) → (c = 5 → v = 0) →
      rspFrame a = onLink a.transactId a.addr (UInt8.ofNat c :: (word s ++ word v)) ∧ RspOk a := by
    intro c s v hc hf hs hn hv hd h0
    have hsf : isSingleFunc a.func := by rw [hf]; exact hc
    have hr : ¬ isRegFunc a.func := by rw [hf]; rcases hc with h | h <;> rw [h] <;> decide
    have hne : a.func ≠ fError := by rw [hf]; rcases hc with h | h <;> rw [h] <;> decide
    refine ⟨?_, .inr (.inr (.inl ⟨hsf, hn, fun h5 => ?_⟩))⟩
    · unfold rspFrame
      have := regBytes_hosts [v] a.data 0 (by intro k _; rw [Nat.zero_add]; simpa using hd k)
      rw [if_neg hne, if_neg hr, if_pos hsf, show (1 : Nat) = [v].length from rfl, this, hf, hs, onLink_hdr _ _ c _ rfl]
      simp [word_eq, List.flatMap_cons]
      rfl
    · have hv0 := h0 (hf.symm.trans h5)
      subst hv0
      rw [hd, hd]
      simp [host]
  cases r with
  | readCoils s q => simp [Request.bits] at hb
  | readDiscrete s q => simp [Request.bits] at hb
  | readHolding s q => exact read 3 (.inl rfl) hf (by have := hv.2; have := hfit.1; omega) (by rw [hnb]; exact length_hosts _) hd
  | readInput s q => exact read 4 (.inr rfl) hf (by have := hv.2; have := hfit.1; omega) (by rw [hnb]; exact length_hosts _) hd
  | writeCoil s on =>
    have : on = false := hon
    subst this
    exact single 5 s 0 (.inl rfl) hf hs hnb (by omega) hd (fun _ => rfl)
  | writeRegister s v => exact single 6 s v (.inr rfl) hf hs hnb hv.2 hd (fun h => absurd h (by decide))
  | writeRegisters s vs =>
    have hf' : a.func = 16 := hf
    refine ⟨?_, .inr (.inr (.inr hf'))⟩
    have e : rspFrame a = hdr a.transactId 6 a.addr a.func ++ be16 a.startItem ++ be16 a.numItems := by
      unfold rspFrame
      rw [if_neg (by rw [hf']; decide), if_neg (by rw [hf']; decide), if_neg (by rw [hf']; decide)]
    have hs' : a.startItem = s := hs
    rw [e, hf', hn s vs rfl, hs']
    have := onLink_hdr a.transactId a.addr 16 16 rfl (word s ++ word vs.length)
    rw [show (Request.writeRegisters s vs).answer regs = 16 :: (word s ++ word vs.length) by simp [Request.answer], this, word_eq, word_eq]
    simp [be16]

/-- The function code of an answer. -/
theorem rspFrame_func (a : AduRsp) (h : a.func < 256) : byteAt (rspFrame a) 7 = a.func := by
  have : ∀ (n : Nat) (l : List UInt8), byteAt (hdr a.transactId n a.addr a.func ++ l) 7 = a.func :=
    fun n l => toNat_ofNat_small _ h
  unfold rspFrame
  split
  · exact this _ _
  split
  · rw [List.append_assoc]; exact this _ _
  split
  · rw [List.append_assoc]; exact this _ _
  · rw [List.append_assoc]; exact this _ _

theorem onLink_func (tid unit : Nat) (c : UInt8) (l : List UInt8) : byteAt (onLink tid unit (c :: l)) 7 = c.toNat := rfl

theorem code_lt (r : Request) : r.code < 17 := by cases r <;> simp [Request.code]

/-- A session that forwarded the request `r` and waits. -/
structure Heard (s : Session) (tid unit : Nat) (r : Request) : Prop where
  st : s.st = .wait
  link : s.link = true
  timer : s.timer = true
  opened : s.opened = true
  cap : s.adu.dataCap = 260
  nb : s.adu.numBytes ≤ 255
  view : s.adu.view = r.view tid unit

theorem heard_final {s : Session} (h : s.Fresh) {w : List UInt8} {tid unit : Nat} {r : Request}
    (hv : (s.final w).adu.view = r.view tid unit) : Heard (s.final w) tid unit r := by
  have hc := Session.inv_decoded (s := Session.mid s .wait (s.pdu.received w)) h.cap h.nb
  exact ⟨rfl, h.link, h.timer, h.opened, hc.1, hc.2, hv⟩

theorem Heard.fresh {s : Session} {tid unit : Nat} {r : Request} (h : Heard s tid unit r) : (Session.ready s).Fresh :=
  ⟨rfl, h.link, h.timer, rfl, h.opened, rfl, rfl, h.cap, h.nb⟩

/-- The session answers as the standard says. -/
theorem answers {s : Session} {tid unit : Nat} {r : Request} (h : Heard s tid unit r) (hv : r.Near) {regs : List Nat}
    (hfit : r.Fits regs) (hb : r.bits = false) (hon : r.coilOn = false) :
    s.step (.rsp ⟨tid, 0, true, r.reply regs⟩ true) = .ok (Session.ready s, [.frame (onLink tid unit (r.answer regs))]) := by
  have v1 : s.adu.transactId = tid := congrArg ReqView.transactId h.view
  have v2 : s.adu.addr = unit := congrArg ReqView.addr h.view
  have v3 : s.adu.func = r.code := congrArg ReqView.func h.view
  have v4 : s.adu.startItem = (r.view tid unit).startItem := congrArg ReqView.startItem h.view
  have v5 : ∀ a vs, r = .writeRegisters a vs → s.adu.numItems = vs.length := by
    intro a vs hr
    have := congrArg ReqView.numItems h.view
    subst hr
    simp only [AduReq.view, show ¬ isSingleFunc s.adu.func by rw [v3]; show ¬ (16 = 5 ∨ 16 = 6); omega, if_false] at this
    exact Option.some.inj this
  obtain ⟨e1, e2⟩ := rspFrame_answer (a := s.rspOf ⟨tid, 0, true, r.reply regs⟩) hv hfit hb hon rfl v2 v3 v4 v5 rfl (fun _ => rfl)
  have hlen : (r.reply regs).length ≤ 260 := by
    cases r with
    | readHolding a q => rw [show (Request.readHolding a q).reply regs = regs.flatMap host from rfl, length_hosts]; have := hv.2; have := hfit.1; omega
    | readInput a q => rw [show (Request.readInput a q).reply regs = regs.flatMap host from rfl, length_hosts]; have := hv.2; have := hfit.1; omega
    | _ => simp [Request.reply]
  rcases rsp_step h.st h.link h.timer h.opened (r := ⟨tid, 0, true, r.reply regs⟩) hlen with ⟨_, _, _, hs⟩ | ⟨hn, _⟩
  · rw [hs, e1]
    rfl
  · exact absurd ⟨v1.symm, rfl, e2⟩ hn

/-! ## C75, sessions -/

/-- C75, sessions: a request of the standard for a unit up to 247, cut in any way, is forwarded once, with its meaning; when the
application gives the registers that were asked for or confirms the write, the session sends the answer of the standard and is
ready for the next request.  Missing: units above 247 (`C75_unit_violated`), answers to reads of bits
(`C75_bits_violated`) and to switching a coil on (`C75_coil_on_violated`), exceptions (`C75_exception_violated`). -/
theorem C75_session_partial {s : Session} (h : s.Fresh) {r : Request} (hr : r.Valid) {tid unit : Nat} (ht : tid < 65536)
    (hu : unit ≤ 247) (cuts : List (List UInt8)) (hc : cuts.flatten = onLink tid unit r.pdu) (hne : ∀ x ∈ cuts, x ≠ []) :
    ∃ s1 os f, s.run (Session.pieces cuts) = .ok (s1, os) ∧ Session.outs os = [.fwd f] ∧ f.view = r.view tid unit ∧
      ∀ regs, r.Fits regs → r.bits = false → r.coilOn = false →
        ∃ s2, s1.step (.rsp ⟨tid, 0, true, r.reply regs⟩ true) = .ok (s2, [.frame (onLink tid unit (r.answer regs))]) ∧ s2.Fresh := by
  have hsz := hr.near.size
  have hF : Framed (onLink tid unit r.pdu) := framed_onLink ht (by omega) (by rw [Request.pdu_length]; omega)
  obtain ⟨a1, a2⟩ := Request.acceptable hr.near ht hu
  obtain ⟨os, g1, g2, _⟩ := session_hears h hF cuts hc hne
  obtain ⟨g3, f, g4, g5⟩ := g2 a1
  have hh : Heard (s.final (onLink tid unit r.pdu)) tid unit r := heard_final h (g3.trans a2)
  refine ⟨_, os, f, g1, g4, g5.trans a2, ?_⟩
  intro regs hfit hb hon
  exact ⟨_, answers hh hr.near hfit hb hon, hh.fresh⟩

/-- C75, sessions: whatever a session forwards is a request of the standard, up to the limits of the quantities and the
value of a coil.  Missing: exactly these limits (`C75_limits_violated`, `C75_coil_value_violated`). -/
theorem C75_forwarded_partial {s : Session} (h : s.Fresh) {w : List UInt8} (hF : Framed w) (cuts : List (List UInt8))
    (hc : cuts.flatten = w) (hne : ∀ x ∈ cuts, x ≠ []) :
    ∃ s1 os, s.run (Session.pieces cuts) = .ok (s1, os) ∧ (∀ w', .frame w' ∉ Session.outs os) ∧
      ∀ f, .fwd f ∈ Session.outs os →
        (∃ (r : Request) (tid unit : Nat), r.Near ∧ tid < 65536 ∧ unit ≤ 247 ∧ w = onLink tid unit r.pdu ∧ f.view = r.view tid unit) ∨
        (∃ tid unit a v, v ≠ 0 ∧ v ≠ 0xFF00 ∧ w = onLink tid unit (badCoil a v)) := by
  obtain ⟨os, g1, g2, g3⟩ := session_hears h hF cuts hc hne
  refine ⟨_, os, g1, ?_⟩
  by_cases ha : AcceptableReq w
  · obtain ⟨_, f, g4, g5⟩ := g2 ha
    rw [g4]
    refine ⟨by simp, ?_⟩
    intro f' hf
    simp only [List.mem_singleton, SOut.fwd.injEq] at hf
    subst hf
    rcases acceptable_is ha with ⟨r, tid, unit, h1, h2, h3, h4⟩ | ⟨tid, unit, a, v, _, _, _, _, h1, h2, h3⟩
    · refine .inl ⟨r, tid, unit, h1, h2, h3, h4, ?_⟩
      rw [g5, h4, (Request.acceptable h1 h2 h3).2]
    · exact .inr ⟨tid, unit, a, v, h1, h2, h3⟩
  · rw [g3 ha]
    simp

/-- Violation of C75: a request within the limits of the program is forwarded although the standard asks for an exception:
quantity 0, more than 2000 bits, no registers to write. -/
theorem C75_limits_violated {s : Session} (h : s.Fresh) {tid unit : Nat} (ht : tid < 65536) (hu : unit ≤ 247) {start : Nat}
    (hs : start < 65536) (r : Request)
    (hr : r = .readCoils start 0 ∨ r = .readDiscrete start 0 ∨ r = .readHolding start 0 ∨ r = .readInput start 0 ∨
      (∃ q, 2001 ≤ q ∧ q ≤ 2008 ∧ (r = .readCoils start q ∨ r = .readDiscrete start q)) ∨ r = .writeRegisters start []) :
    ¬ r.Valid ∧ ∃ s1 os f, s.run (Session.pieces [onLink tid unit r.pdu]) = .ok (s1, os) ∧ Session.outs os = [.fwd f] ∧
      f.view = r.view tid unit := by
  have hn : r.Near ∧ ¬ r.Valid := by
    rcases hr with rfl | rfl | rfl | rfl | ⟨q, h1, h2, rfl | rfl⟩ | rfl <;> simp [Request.Near, Request.Valid, hs] <;> omega
  obtain ⟨hn, hv⟩ := hn
  have hsz := hn.size
  have hF : Framed (onLink tid unit r.pdu) := framed_onLink ht (by omega) (by rw [Request.pdu_length]; omega)
  obtain ⟨a1, a2⟩ := Request.acceptable hn ht hu
  obtain ⟨os, g1, g2, _⟩ := session_hears h hF [onLink tid unit r.pdu] (by simp) (by simp [onLink, word])
  obtain ⟨_, f, g4, g5⟩ := g2 a1
  exact ⟨hv, _, os, f, g1, g4, g5.trans a2⟩

/-- Violation of C75: a coil write with any value is forwarded. -/
theorem C75_coil_value_violated {s : Session} (h : s.Fresh) {tid unit a v : Nat} (ht : tid < 65536) (hu : unit ≤ 247)
    (ha : a < 65536) :
    ∃ s1 os f, s.run (Session.pieces [onLink tid unit (badCoil a v)]) = .ok (s1, os) ∧ Session.outs os = [.fwd f] ∧
      f.view = ⟨tid, unit, 5, a, none, some (host v)⟩ := by
  obtain ⟨f1, f2, f3, f4, f5, f6, f7⟩ := onLink_fields (pdu := badCoil a v) ht (by omega : unit < 256) (by simp [badCoil])
  have hF : Framed (onLink tid unit (badCoil a v)) := framed_onLink ht (by omega) (by simp [badCoil])
  have b7 : byteAt (onLink tid unit (badCoil a v)) 7 = 5 := rfl
  have w8 : wordAt (onLink tid unit (badCoil a v)) 8 = a := wordAt_word a ha
  have d10 : (onLink tid unit (badCoil a v)).drop 10 = word v := rfl
  have hl : (badCoil a v).length = 5 := rfl
  rw [hl] at f1 f4
  have a1 : AcceptableReq (onLink tid unit (badCoil a v)) := by
    unfold AcceptableReq
    rw [f1, f3, f4, f5, b7]
    simp [hu]
  have a2 : frameReq (onLink tid unit (badCoil a v)) = ⟨tid, unit, 5, a, none, some (host v)⟩ := by
    unfold frameReq
    rw [f2, f5, b7, w8, d10]
    rfl
  obtain ⟨os, g1, g2, _⟩ := session_hears h hF [onLink tid unit (badCoil a v)] (by simp) (by simp [onLink, word])
  obtain ⟨_, f, g4, g5⟩ := g2 a1
  exact ⟨_, os, f, g1, g4, g5.trans a2⟩

/-- Violation of C75: units 248 to 255 are not served; 255 is the unit the standard recommends for a server that is
addressed by its IP address. -/
theorem C75_unit_violated {s : Session} (h : s.Fresh) {r : Request} (hr : r.Valid) {tid unit : Nat} (ht : tid < 65536)
    (hu : 248 ≤ unit) (hu' : unit ≤ 255) :
    ∃ s1 os, s.run (Session.pieces [onLink tid unit r.pdu]) = .ok (s1, os) ∧ Session.outs os = [] := by
  have hsz := hr.near.size
  have hp : r.pdu.length + 7 < 260 := by rw [Request.pdu_length]; omega
  obtain ⟨_, _, _, _, f5, _⟩ := onLink_fields (pdu := r.pdu) ht (by omega : unit < 256) hp
  obtain ⟨os, g1, _, g3⟩ := session_hears h (framed_onLink (unit := unit) ht (by omega) hp) [onLink tid unit r.pdu] (by simp) (by simp [onLink, word])
  refine ⟨_, os, g1, g3 ?_⟩
  intro ha
  have := ha.2.2.2.1
  omega

/-- The frames a session sends while it waits. -/
theorem sent_frame {s : Session} {tid unit : Nat} {r : Request} (h : Heard s tid unit r) {a : AppRsp} (hd : a.data.length ≤ 260) :
    ∃ s2 o, s.step (.rsp a true) = .ok (s2, o) ∧ ∀ w, .frame w ∈ o → RspOk (s.rspOf a) ∧ w = rspFrame (s.rspOf a) := by
  rcases rsp_step h.st h.link h.timer h.opened hd with ⟨_, _, h3, hs⟩ | ⟨_, hs⟩
  · exact ⟨_, _, hs, by simp [h3]⟩
  · exact ⟨_, _, hs, by simp⟩

/-- The session after a request of the standard. -/
theorem heard {s : Session} (h : s.Fresh) {r : Request} (hr : r.Near) {tid unit : Nat} (ht : tid < 65536) (hu : unit ≤ 247) :
    ∃ s1 f, s.step (.data (.ok (onLink tid unit r.pdu))) = .ok (s1, [.fwd f]) ∧ f.view = r.view tid unit ∧ Heard s1 tid unit r := by
  have hsz := hr.size
  have hF : Framed (onLink tid unit r.pdu) := framed_onLink ht (by omega) (by rw [Request.pdu_length]; omega)
  obtain ⟨a1, a2⟩ := Request.acceptable hr ht hu
  obtain ⟨os, g1, g2, _⟩ := session_hears h hF [onLink tid unit r.pdu] (by simp) (by simp [onLink, word])
  obtain ⟨g3, f, g4, g5⟩ := g2 a1
  have g0 := Session.seg_last (w := onLink tid unit r.pdu) (p := []) (c := onLink tid unit r.pdu) h (by simp) hF
  rw [Session.at_nil h] at g0
  simp only [Session.pieces, List.map_cons, List.map_nil, Session.run, g0, Exec.ok_bind, Exec.pure_eq, Exec.ok.injEq, Prod.mk.injEq,
    true_and] at g1
  subst g1
  simp only [Session.outs, List.flatMap_cons, List.flatMap_nil, List.append_nil] at g4
  exact ⟨_, f, by rw [g0, g4], g5.trans a2, heard_final h (g3.trans a2)⟩

/-- Violation of C75: whatever the application answers to a read of bits, no answer to that function is sent. -/
theorem C75_bits_violated {s : Session} (h : s.Fresh) {r : Request} (hr : r.Valid) (hb : r.bits = true) {tid unit : Nat}
    (ht : tid < 65536) (hu : unit ≤ 247) :
    ∃ s1 f, s.step (.data (.ok (onLink tid unit r.pdu))) = .ok (s1, [.fwd f]) ∧ f.view = r.view tid unit ∧
      ∀ a : AppRsp, a.data.length ≤ 260 → ∃ s2 o, s1.step (.rsp a true) = .ok (s2, o) ∧
        ∀ w, .frame w ∈ o → byteAt w 7 ≠ r.code ∧ ∀ l, w ≠ onLink tid unit (UInt8.ofNat r.code :: l) := by
  obtain ⟨s1, f, g1, g2, hh⟩ := heard h hr.near ht hu
  refine ⟨s1, f, g1, g2, ?_⟩
  intro a ha
  obtain ⟨s2, o, k1, k2⟩ := sent_frame hh ha
  refine ⟨s2, o, k1, ?_⟩
  intro w hw
  obtain ⟨q1, q2⟩ := k2 w hw
  have v3 : s1.adu.func = r.code := congrArg ReqView.func hh.view
  have hc : r.code = 1 ∨ r.code = 2 := by cases r <;> simp_all [Request.bits, Request.code]
  have hne : byteAt w 7 ≠ r.code := by
    rw [q2, rspFrame_func _ (by have := rspOk_func_lt q1; omega)]
    intro he
    rw [RspOk, he] at q1
    rcases hc with hc | hc <;> rw [hc] at q1 <;> revert q1 <;> simp [fError, isRegFunc, isSingleFunc, fPresetMulti, fReadHolding, fReadInput, fForceCoil, fPresetSingle]
  refine ⟨hne, ?_⟩
  intro l hl
  apply hne
  rw [hl, onLink_func]
  exact toNat_ofNat_small _ (by omega)

/-- Violation of C75: whatever the application answers to the request that switches a coil on, the session does not send
the answer of the standard, because the codec takes the two bytes of the value in the wrong order. -/
theorem C75_coil_on_violated {s : Session} (h : s.Fresh) {tid unit a : Nat} (ht : tid < 65536) (hu : unit ≤ 247) (ha : a < 65536) :
    ∃ s1 f, s.step (.data (.ok (onLink tid unit (Request.writeCoil a true).pdu))) = .ok (s1, [.fwd f]) ∧
      f.view = (Request.writeCoil a true).view tid unit ∧
      ∀ b : AppRsp, b.data.length ≤ 260 → ∃ s2 o, s1.step (.rsp b true) = .ok (s2, o) ∧
        .frame (onLink tid unit ((Request.writeCoil a true).answer [])) ∉ o := by
  obtain ⟨s1, f, g1, g2, hh⟩ := heard h (r := .writeCoil a true) ha ht hu
  refine ⟨s1, f, g1, g2, ?_⟩
  intro b hb
  obtain ⟨s2, o, k1, k2⟩ := sent_frame hh hb
  refine ⟨s2, o, k1, ?_⟩
  intro hw
  obtain ⟨q1, q2⟩ := k2 _ hw
  have hf := rspFrame_func (s1.rspOf b) (by have := rspOk_func_lt q1; omega)
  rw [← q2] at hf
  have hf' : (s1.rspOf b).func = 5 := hf.symm
  have hc : (s1.rspOf b).data 1 = 0 := by
    rw [RspOk, hf'] at q1
    rcases q1 with q | ⟨q, _⟩ | ⟨_, _, q⟩ | q
    · exact absurd q (by decide)
    · exact absurd q (by decide)
    · exact (q rfl).1
    · exact absurd q (by decide)
  have e : byteAt (rspFrame (s1.rspOf b)) 10 = 0 := by
    unfold rspFrame
    rw [if_neg (by rw [hf']; decide), if_neg (by rw [hf']; decide), if_pos (by rw [hf']; decide)]
    show ((s1.rspOf b).data 1).toNat = 0
    rw [hc]
    rfl
  rw [← q2] at e
  exact absurd e (by show (255 : Nat) ≠ 0; omega)

/-- Violation of C75: when the application reports a Modbus error, the answer carries the function code 0x8f, whatever the function of the
request was; the standard asks for the function code plus 0x80. -/
theorem C75_exception_violated {s : Session} (h : s.Fresh) {r : Request} (hr : r.Valid) {tid unit : Nat} (ht : tid < 65536) (hu : unit ≤ 247) :
    ∃ s1 f, s.step (.data (.ok (onLink tid unit r.pdu))) = .ok (s1, [.fwd f]) ∧ f.view = r.view tid unit ∧
      ∀ a : AppRsp, a.transactId = tid → a.success = true → a.error ≠ 0 → a.data.length ≤ 260 →
        ∃ s2 w, s1.step (.rsp a true) = .ok (s2, [.frame w]) ∧ byteAt w 7 = 0x8f ∧ ∀ e, w ≠ onLink tid unit (r.exception e) := by
  obtain ⟨s1, f, g1, g2, hh⟩ := heard h hr.near ht hu
  refine ⟨s1, f, g1, g2, ?_⟩
  intro a h1 h2 h3 h4
  have v1 : s1.adu.transactId = tid := congrArg ReqView.transactId hh.view
  have hfn : (s1.rspOf a).func = fError := if_pos h3
  rcases rsp_step hh.st hh.link hh.timer hh.opened h4 with ⟨_, _, _, hs⟩ | ⟨hn, _⟩
  · have h7 : byteAt (rspFrame (s1.rspOf a)) 7 = 0x8f := by
      rw [rspFrame_func _ (by rw [hfn]; decide), hfn]
      rfl
    refine ⟨_, _, hs, h7, ?_⟩
    intro e he
    rw [he, Request.exception, onLink_func, toNat_ofNat_small _ (by have := code_lt r; omega)] at h7
    have := code_lt r
    have : r.code ≠ 15 := by cases r <;> simp [Request.code]
    omega
  · exact absurd ⟨h1.trans v1.symm, h2, .inl hfn⟩ hn

/-! ## Frames that are not served -/

/-- A session that dropped the frame `w` and waits for an answer that nobody will give. -/
structure Deaf (s : Session) (n : Nat) : Prop where
  st : s.st = .wait
  link : s.link = true
  opened : s.opened = true
  cap : s.adu.dataCap = 260
  nb : s.adu.numBytes ≤ 255
  announced : beAt s.pdu.buf 4 + 6 = n
  len : n ≤ s.pdu.len

theorem deaf_step {s : Session} {n : Nat} (h : Deaf s n) (h6 : 6 ≤ n) (hn : n < 260) {x : List UInt8} (hx : x ≠ []) :
    ∃ s1, s.step (.data (.ok x)) = .ok (s1, []) ∧ Deaf s1 n := by
  have hxl : 0 < x.length := List.length_pos_iff.2 hx
  by_cases hl : s.pdu.len ≤ 260
  case neg =>
    refine ⟨s, ?_, h⟩
    have hr : s.receive (.ok x) = .ok (s, [], .done) := by
      unfold Session.receive
      rw [if_pos (by have hA : maxAduLen = 260 := rfl; omega)]
    simp only [Session.step, h.link, if_true, Session.onData, h.st, hr, Exec.ok_bind, Exec.pure_eq]
  have hk : ∀ k, k < s.pdu.len → (s.pdu.received (x.take (512 - s.pdu.len))).buf k = s.pdu.buf k := by
    intro k hk
    simp only [PduBuf.received, memWrite]
    rw [if_neg (by omega)]
  have hb : beAt (s.pdu.received (x.take (512 - s.pdu.len))).buf 4 = beAt s.pdu.buf 4 := by
    unfold beAt
    rw [hk 4 (by have := h.len; omega), hk 5 (by have := h.len; omega)]
  have hlen : (s.pdu.received (x.take (512 - s.pdu.len))).len = s.pdu.len + min (512 - s.pdu.len) x.length := by
    simp [PduBuf.received]
  have hann := h.announced
  have hle := h.len
  have hr : s.receive (.ok x) = .ok ({ s with pdu := s.pdu.received (x.take (512 - s.pdu.len)) }, [], .done) := by
    rw [Session.receive_eq s x h.link h.opened hl]
    show Session.evaluate { s with pdu := s.pdu.received (x.take (512 - s.pdu.len)) } = _
    rw [Session.evaluate_eq { s with pdu := s.pdu.received (x.take (512 - s.pdu.len)) } h.cap h.nb (by dsimp only; rw [hb, hlen]; intro; omega)]
    unfold Session.evalSpec
    dsimp only
    rw [hb, hlen, if_neg (by omega), if_neg (by omega), if_neg (by omega), if_pos (by omega)]
  refine ⟨{ s with pdu := s.pdu.received (x.take (512 - s.pdu.len)) }, ?_, ?_⟩
  · simp only [Session.step, h.link, if_true, Session.onData, h.st, hr, Exec.ok_bind, Exec.pure_eq]
  · exact ⟨h.st, h.link, h.opened, h.cap, h.nb, by rw [← h.announced]; show beAt _ 4 + 6 = _; rw [hb], by
      show n ≤ (s.pdu.received (x.take (512 - s.pdu.len))).len
      rw [hlen]; omega⟩

theorem deaf_run {n : Nat} (h6 : 6 ≤ n) (hn : n < 260) (later : List (List UInt8)) (hne : ∀ x ∈ later, x ≠ []) {s : Session} (h : Deaf s n) :
    ∃ s1 os, s.run (Session.pieces later) = .ok (s1, os) ∧ Session.outs os = [] ∧ Deaf s1 n := by
  induction later generalizing s with
  | nil => exact ⟨s, [], rfl, rfl, h⟩
  | cons x later ih =>
    obtain ⟨s1, g1, g2⟩ := deaf_step h h6 hn (hne x (by simp))
    obtain ⟨s2, os, k1, k2, k3⟩ := ih (fun y hy => hne y (by simp [hy])) g2
    refine ⟨s2, (.data (.ok x), []) :: os, ?_, by simpa [Session.outs] using k2, k3⟩
    simp only [Session.pieces, List.map_cons, Session.run, g1, Exec.ok_bind] at k1 ⊢
    rw [k1]
    rfl

/-- Violation of C75: a frame with a function the program does not name gets no answer (the standard asks for
exception 1), and every request that arrives before the session gives up waiting is lost with it. -/
theorem C75_unsupported_violated {s : Session} (h : s.Fresh) {tid unit : Nat} {pdu : List UInt8} (ht : tid < 65536) (hu : unit < 256)
    (hp : pdu.length + 7 < 260) (hf : byteAt pdu 0 ∉ [1, 2, 3, 4, 5, 6, 16]) (later : List (List UInt8)) (hne : ∀ x ∈ later, x ≠ []) :
    ∃ s1 os, s.run (Session.pieces (onLink tid unit pdu :: later)) = .ok (s1, os) ∧ Session.outs os = [] ∧ s1.st = .wait := by
  obtain ⟨f1, _, _, f4, _, f6, _⟩ := onLink_fields ht hu hp
  have hF := framed_onLink (unit := unit) ht hu hp
  obtain ⟨os, g1, _, g3⟩ := session_hears h hF [onLink tid unit pdu] (by simp) (by simp [onLink, word])
  have ha : ¬ AcceptableReq (onLink tid unit pdu) := by
    intro ha
    have h5 := ha.2.2.2.2
    have := f6 0
    simp only [Nat.add_zero] at this
    rw [this] at h5
    simp only [List.mem_cons, List.not_mem_nil, or_false] at hf
    omega
  have g0 := Session.seg_last (w := onLink tid unit pdu) (p := []) (c := onLink tid unit pdu) h (by simp) hF
  rw [Session.at_nil h] at g0
  have g4 := g3 ha
  simp only [Session.pieces, List.map_cons, List.map_nil, Session.run, g0, Exec.ok_bind, Exec.pure_eq, Exec.ok.injEq, Prod.mk.injEq,
    true_and] at g1
  subst g1
  simp only [Session.outs, List.flatMap_cons, List.flatMap_nil, List.append_nil] at g4
  rw [g4] at g0
  have hc := Session.inv_decoded (s := Session.mid s .wait (s.pdu.received (onLink tid unit pdu))) h.cap h.nb
  have hd : Deaf (s.final (onLink tid unit pdu)) (pdu.length + 7) := by
    refine ⟨rfl, h.link, h.opened, hc.1, hc.2, ?_, ?_⟩
    · have := beAt_prefix s.pdu h.len (onLink tid unit pdu) [] (by omega)
      rw [List.append_nil, f4] at this
      show beAt (s.pdu.received (onLink tid unit pdu)).buf 4 + 6 = _
      rw [this]
    · show _ ≤ (s.pdu.received (onLink tid unit pdu)).len
      simp [PduBuf.received, h.len, f1]
  obtain ⟨s1, os, k1, k2, k3⟩ := deaf_run (by omega) (by omega) later hne hd
  refine ⟨s1, (.data (.ok (onLink tid unit pdu)), []) :: os, ?_, by simpa [Session.outs] using k2, k3.st⟩
  simp only [Session.pieces, List.map_cons, Session.run, g0, Exec.ok_bind] at k1 ⊢
  rw [k1]
  rfl

/-! ## C75, clients -/

theorem view_func (r : Request) (t u : Nat) : (r.view t u).func = r.code := rfl

theorem reqFrame_pending {r : Request} (hr : r.Near) (hon : r.coilOn = false) {cid tid unit : Nat} (hu : unit ≤ 247) :
    reqFrame (Client.reqOfPending (r.pending cid tid unit)) = onLink tid unit r.pdu ∧ ReqOk (Client.reqOfPending (r.pending cid tid unit)) ∧
      (r.pending cid tid unit).numBytes ≤ 260 := by
  have read : ∀ c q st : Nat, (c = 1 ∨ c = 2 ∨ c = 3 ∨ c = 4) → r.code = c → (r.pending cid tid unit).startItem = st →
      (r.pending cid tid unit).numItems = q → r.pdu = UInt8.ofNat c :: (word st ++ word q) → pduLen c q ≤ 253 → (r.pending cid tid unit).numBytes = 0 →
      reqFrame (Client.reqOfPending (r.pending cid tid unit)) = onLink tid unit r.pdu ∧ ReqOk (Client.reqOfPending (r.pending cid tid unit)) ∧
      (r.pending cid tid unit).numBytes ≤ 260 := by
    intro c q st hc hf hst hq hpdu hl hb
    have hf' : (Client.reqOfPending (r.pending cid tid unit)).func = c := hf
    have hq' : (Client.reqOfPending (r.pending cid tid unit)).numItems = q := hq
    have hs' : (Client.reqOfPending (r.pending cid tid unit)).startItem = st := hst
    have ht' : (Client.reqOfPending (r.pending cid tid unit)).transactId = tid := rfl
    have hu' : (Client.reqOfPending (r.pending cid tid unit)).addr = unit := rfl
    refine ⟨?_, ⟨hu, .inl ⟨by rw [hf']; exact hc, by rw [hf', hq']; exact hl⟩⟩, by omega⟩
    unfold reqFrame
    rw [hf', if_neg (by rcases hc with h | h | h | h <;> rw [h] <;> decide), if_neg (by rcases hc with h | h | h | h <;> rw [h] <;> decide),
      hq', hs', ht', hu', hpdu, onLink_hdr _ _ c _ rfl, word_eq, word_eq, List.append_assoc]
    rfl
  have single : ∀ c st v : Nat, (c = 5 ∨ c = 6) → r.code = c → (r.pending cid tid unit).startItem = st → (r.pending cid tid unit).numItems = 0 →
      (r.pending cid tid unit).data = host v → r.pdu = UInt8.ofNat c :: (word st ++ word v) → (c = 5 → v = 0) →
      reqFrame (Client.reqOfPending (r.pending cid tid unit)) = onLink tid unit r.pdu ∧ ReqOk (Client.reqOfPending (r.pending cid tid unit)) ∧
      (r.pending cid tid unit).numBytes ≤ 260 := by
    intro c st v hc hf hst hq hdat hpdu h0
    have hnb : (r.pending cid tid unit).numBytes = 2 := by
      show (r.pending cid tid unit).data.length = 2
      rw [hdat]; rfl
    have hf' : (Client.reqOfPending (r.pending cid tid unit)).func = c := hf
    have hs' : (Client.reqOfPending (r.pending cid tid unit)).startItem = st := hst
    have ht' : (Client.reqOfPending (r.pending cid tid unit)).transactId = tid := rfl
    have hu' : (Client.reqOfPending (r.pending cid tid unit)).addr = unit := rfl
    have hd' : ∀ i, (Client.reqOfPending (r.pending cid tid unit)).data i = (host v).getD i 0 := by
      intro i
      show (r.pending cid tid unit).data.getD i 0 = _
      rw [hdat]
    refine ⟨?_, ⟨hu, .inr (.inl ⟨by rw [hf']; exact hc, hq, hnb, fun h5 => ?_⟩)⟩, by omega⟩
    · unfold reqFrame
      have := regBytes_hosts [v] (Client.reqOfPending (r.pending cid tid unit)).data 0 (by intro k _; rw [Nat.zero_add]; simpa using hd' k)
      rw [hf', if_neg (by rcases hc with h | h <;> rw [h] <;> decide), if_pos (show isSingleFunc c from hc), show (1 : Nat) = [v].length from rfl, this,
        hs', ht', hu', hpdu, onLink_hdr _ _ c _ rfl]
      simp [word_eq, List.flatMap_cons]
      rfl
    · have hv0 := h0 (hf'.symm.trans h5)
      subst hv0
      rw [hd', hd']
      simp [host]
  cases r with
  | readCoils s q => exact read 1 q s (by omega) rfl rfl rfl (by simp [Request.pdu]) ((pduLen_read (.inl rfl)).2 ⟨fun _ => hr.2, fun h => absurd h (by decide)⟩) rfl
  | readDiscrete s q => exact read 2 q s (by omega) rfl rfl rfl (by simp [Request.pdu]) ((pduLen_read (.inr (.inl rfl))).2 ⟨fun _ => hr.2, fun h => absurd h (by decide)⟩) rfl
  | readHolding s q => exact read 3 q s (by omega) rfl rfl rfl (by simp [Request.pdu]) ((pduLen_read (.inr (.inr (.inl rfl)))).2 ⟨fun h => absurd h (by decide), fun _ => hr.2⟩) rfl
  | readInput s q => exact read 4 q s (by omega) rfl rfl rfl (by simp [Request.pdu]) ((pduLen_read (.inr (.inr (.inr rfl)))).2 ⟨fun h => absurd h (by decide), fun _ => hr.2⟩) rfl
  | writeCoil s on =>
    have : on = false := hon
    subst this
    exact single 5 s 0 (.inl rfl) rfl rfl rfl rfl (by simp [Request.pdu, Request.coil]) (fun _ => rfl)
  | writeRegister s v => exact single 6 s v (.inr rfl) rfl rfl rfl rfl (by simp [Request.pdu]) (fun h => absurd h (by decide))
  | writeRegisters s vs =>
    generalize hp : (Request.writeRegisters s vs).pending cid tid unit = p
    have hd : p.data = vs.flatMap host := by rw [← hp]; rfl
    have hl : vs.length ≤ 123 := hr.2.1
    have hnb : p.numBytes = 2 * vs.length := by rw [← hp, ← length_hosts]; rfl
    have hni : p.numItems = vs.length := by rw [← hp]; rfl
    have hf : p.func = 16 := by rw [← hp]; rfl
    have ha : p.addr = unit := by rw [← hp]; rfl
    have ht : p.transactId = tid := by rw [← hp]; rfl
    have hs : p.startItem = s := by rw [← hp]; rfl
    refine ⟨?_, ⟨by rw [show (Client.reqOfPending p).addr = unit from ha]; exact hu, .inr (.inr ⟨hf, ?_, ?_⟩)⟩, by omega⟩
    · unfold reqFrame
      have := regBytes_hosts vs (Client.reqOfPending p).data 0 (by
        intro k _
        rw [Nat.zero_add]
        show p.data.getD k 0 = _
        rw [hd])
      rw [show (Client.reqOfPending p).func = 16 from hf, if_pos (show (16 : Nat) = fPresetMulti from rfl), show (Client.reqOfPending p).numBytes = 2 * vs.length from hnb,
        show (Client.reqOfPending p).numItems = vs.length from hni, show (Client.reqOfPending p).transactId = tid from ht,
        show (Client.reqOfPending p).addr = unit from ha, show (Client.reqOfPending p).startItem = s from hs,
        show 2 * vs.length / 2 = vs.length by omega, this]
      rw [show (Request.writeRegisters s vs).pdu = 16 :: (word s ++ (word vs.length ++ ([UInt8.ofNat (2 * vs.length)] ++ vs.flatMap word))) by
        simp [Request.pdu], onLink_hdr _ _ 16 16 rfl, word_eq, word_eq]
      simp only [List.length_append, length_words, List.length_cons, List.length_nil, List.append_assoc, be16]
      rw [show 7 + 2 * vs.length = 0 + 1 + 1 + (0 + 1 + 1 + (0 + 1 + 2 * vs.length)) + 2 by omega]
    · show p.numBytes = p.numItems * 2
      omega
    · show p.numBytes ≤ 247
      omega

/-- C75, clients: a request of the standard other than switching a coil on, for a unit up to 247, is sent as the standard says.
Missing: units above 247, which the encoder refuses as the session does, and switching a coil on (`C75_client_coil_on_violated`). -/
theorem C75_client_sends_partial {c : Client} {r : Request} (hr : r.Valid) (hon : r.coilOn = false) {cid tid unit : Nat} (hu : unit ≤ 247)
    {ps : List Pending} (hc : Exchange.Ready c (r.pending cid tid unit :: ps)) (k : Bool) :
    ∃ c1, c.step (.timer true k) = .ok (c1, [.frame (onLink tid unit r.pdu)]) ∧ c1.Fresh (r.pending cid tid unit) ∧
      c1.pending = r.pending cid tid unit :: ps := by
  obtain ⟨h1, h2, h3⟩ := reqFrame_pending (cid := cid) (tid := tid) hr.near hon hu
  obtain ⟨c1, g1, g2, _, g3⟩ := Exchange.client_sends hc h2 rfl h3 k
  exact ⟨c1, by rw [g1, h1], g2, g3⟩

/-- Violation of C75: the client sends requests the standard forbids: quantity 0, more than 2000 bits, no registers. -/
theorem C75_client_limits_violated {c : Client} {cid tid unit : Nat} (hu : unit ≤ 247) {start : Nat} (hs : start < 65536) (r : Request)
    (hr : r = .readCoils start 0 ∨ r = .readDiscrete start 0 ∨ r = .readHolding start 0 ∨ r = .readInput start 0 ∨
      (∃ q, 2001 ≤ q ∧ q ≤ 2008 ∧ (r = .readCoils start q ∨ r = .readDiscrete start q)) ∨ r = .writeRegisters start [])
    {ps : List Pending} (hc : Exchange.Ready c (r.pending cid tid unit :: ps)) (k : Bool) :
    ¬ r.Valid ∧ ∃ c1, c.step (.timer true k) = .ok (c1, [.frame (onLink tid unit r.pdu)]) := by
  have hn : r.Near ∧ ¬ r.Valid ∧ r.coilOn = false := by
    rcases hr with rfl | rfl | rfl | rfl | ⟨q, h1, h2, rfl | rfl⟩ | rfl <;> simp [Request.Near, Request.Valid, Request.coilOn, hs] <;> omega
  obtain ⟨hn, hv, hon⟩ := hn
  obtain ⟨h1, h2, h3⟩ := reqFrame_pending (cid := cid) (tid := tid) hn hon hu
  obtain ⟨c1, g1, _⟩ := Exchange.client_sends hc h2 rfl h3 k
  exact ⟨hv, c1, by rw [g1, h1]⟩

/-- What a client puts on the link when it is about to send. -/
theorem client_frame {c : Client} {p : Pending} {ps : List Pending} (hc : Exchange.Ready c (p :: ps)) (hd : p.data.length = p.numBytes)
    (hb : p.numBytes ≤ 260) (sendOk k : Bool) :
    ∃ c1 o, c.step (.timer sendOk k) = .ok (c1, o) ∧
      ∀ w, .frame w ∈ o → ReqOk (Client.reqOfPending p) ∧ w = reqFrame (Client.reqOfPending p) := by
  obtain ⟨st, pending, pdu, timer, opened⟩ := c
  obtain ⟨h1, h2, h3, h4⟩ := hc
  simp only at h1 h2 h3 h4
  subst h1 h2 h3 h4
  obtain ⟨b, ok, e1, _, e2, e3⟩ := encodeReq_eq (fun _ => 0) (Client.reqOfPending p) (Nat.le_of_eq hd.symm) hb
  simp only [Client.step, if_true, Client.onTimer, Client.send_body, e1, Exec.ok_bind]
  cases ok with
  | false =>
    simp only [if_true, Exec.pure_eq, Exec.ok_bind]
    exact ⟨_, _, rfl, by simp [Client.rspError]⟩
  | true =>
    cases sendOk with
    | false =>
      simp only [Bool.true_eq_false, if_false, Bool.false_eq_true, and_false, Exec.pure_eq, Exec.ok_bind]
      refine ⟨_, _, rfl, ?_⟩
      intro w hw
      simp [Client.fail, Client.drain, Client.rspError] at hw
    | true =>
      simp only [Bool.true_eq_false, if_false, and_self, if_true, Exec.pure_eq, Exec.ok_bind]
      refine ⟨_, _, rfl, ?_⟩
      intro w hw
      simp only [List.mem_singleton, COut.frame.injEq] at hw
      exact ⟨e2.1 rfl, hw.trans (e3 rfl).1.content⟩

/-- Violation of C75: whatever a caller asks for, the client never sends the request that switches a coil on; the value it
sends for it is 0x00FF, which the standard forbids. -/
theorem C75_client_coil_on_violated {c : Client} {p : Pending} {ps : List Pending} (hc : Exchange.Ready c (p :: ps))
    (hd : p.data.length = p.numBytes) (hb : p.numBytes ≤ 260) (sendOk k : Bool) :
    (∃ c1 o, c.step (.timer sendOk k) = .ok (c1, o) ∧ ∀ tid unit a, .frame (onLink tid unit (Request.writeCoil a true).pdu) ∉ o) ∧
    (p.func = 5 → p.numItems = 0 → p.data = [0xFF, 0] → p.addr ≤ 247 →
      ∃ c1, c.step (.timer true k) = .ok (c1, [.frame (onLink p.transactId p.addr (badCoil p.startItem 0x00FF))])) := by
  constructor
  · obtain ⟨c1, o, g1, g2⟩ := client_frame hc hd hb sendOk k
    refine ⟨c1, o, g1, ?_⟩
    intro tid unit a hw
    obtain ⟨q1, q2⟩ := g2 _ hw
    generalize hq : Client.reqOfPending p = q at q1 q2
    have hf : q.func = 5 := by
      have h7 : byteAt (reqFrame q) 7 = q.func := by
        have : ∀ (n : Nat) (l : List UInt8), byteAt (hdr q.transactId n q.addr q.func ++ l) 7 = q.func :=
          fun n l => toNat_ofNat_small _ (reqOk_func_lt q1)
        unfold reqFrame
        split
        · simp only [List.append_assoc]; exact this _ _
        split
        · rw [List.append_assoc]; exact this _ _
        · rw [List.append_assoc]; exact this _ _
      rw [← q2] at h7
      exact h7.symm
    have hd1 : q.data 1 = 0 := by
      rcases q1.2 with ⟨h, _⟩ | ⟨_, _, _, h⟩ | ⟨h, _⟩
      · rw [hf] at h; exact absurd h (by decide)
      · exact (h hf).1
      · rw [hf] at h; exact absurd h (by decide)
    have e : byteAt (reqFrame q) 10 = 0 := by
      unfold reqFrame
      rw [if_neg (by rw [hf]; decide), if_pos (by rw [hf]; decide)]
      show (q.data 1).toNat = 0
      rw [hd1]
      rfl
    rw [← q2] at e
    exact absurd e (by show (255 : Nat) ≠ 0; omega)
  · intro h5 h0 hv ha
    have hnb : p.numBytes = 2 := by rw [← hd, hv]; rfl
    have hR : ReqOk (Client.reqOfPending p) := by
      refine ⟨ha, .inr (.inl ⟨.inl h5, h0, hnb, fun _ => ?_⟩)⟩
      show p.data.getD 1 0 = 0 ∧ (p.data.getD 0 0 = 0 ∨ p.data.getD 0 0 = 0xFF)
      rw [hv]
      simp
    obtain ⟨c1, g1, _⟩ := Exchange.client_sends hc hR hd hb k
    refine ⟨c1, ?_⟩
    rw [g1]
    have e : reqFrame (Client.reqOfPending p) = onLink p.transactId p.addr (badCoil p.startItem 0x00FF) := by
      have hf : (Client.reqOfPending p).func = 5 := h5
      unfold reqFrame
      rw [hf, if_neg (by decide), if_pos (by decide)]
      have := onLink_hdr p.transactId p.addr 5 5 rfl (word p.startItem ++ word 0x00FF)
      rw [show badCoil p.startItem 0x00FF = 5 :: (word p.startItem ++ word 0x00FF) by simp [badCoil], this, word_eq, word_eq, List.append_assoc]
      have hr : regBytes (Client.reqOfPending p).data 0 1 = be16 0x00FF := by
        show [p.data.getD 1 0, p.data.getD 0 0] = _
        rw [hv]
        rfl
      rw [hr]
      rfl
    rw [e]

/-- C75, clients: an answer of the standard to a request of registers or to a write is reported with the registers that were read or
the value that was written.  Missing: reads of bits and exceptions (`C75_client_deaf_violated`). -/
theorem C75_client_reports_partial {c : Client} {r : Request} (hr : r.Valid) (hon : r.coilOn = false) (hb : r.bits = false)
    {cid tid unit : Nat} (ht : tid < 65536) (hu : unit ≤ 247) {ps : List Pending} (h : c.Fresh (r.pending cid tid unit))
    (hp : c.pending = r.pending cid tid unit :: ps) {regs : List Nat} (hfit : r.Fits regs) :
    ∃ c2, c.step (.data (.ok (onLink tid unit (r.answer regs)))) = .ok (c2, [.rsp ⟨cid, tid, true, 0, r.reply regs⟩]) ∧
      Exchange.Ready c2 ps := by
  obtain ⟨e1, e2⟩ := rspFrame_answer (regs := regs) (tid := tid) (unit := unit) (r := r)
    (a := { transactId := tid, func := r.code, addr := unit, error := 0, startItem := (r.view tid unit).startItem,
            numItems := (r.view tid unit).numItems.getD 0, numBytes := (r.reply regs).length, data := fun i => (r.reply regs).getD i 0 })
    hr.near hfit hb hon rfl rfl rfl rfl (by rintro s vs rfl; rfl) rfl (fun _ => rfl)
  have hs : (r.view tid unit).startItem < 65536 := by
    cases r <;> first | exact hr | exact hr.1
  obtain ⟨c2, g1, g2⟩ := Exchange.client_reports h hp e2 rfl ht rfl (by dsimp only; omega) hs (by
    intro hf
    dsimp only
    cases r <;> first | (simp [Request.view]; done) | skip
    all_goals simp only [Request.view, Option.getD_some]
    all_goals first | (have := hr.2.2; omega) | (have := hr.2.2.1; omega)) (by simp [declaredErrors]) (.inr rfl)
  refine ⟨c2, ?_, g2⟩
  rw [← e1, g1]
  dsimp only
  have hne : r.code ≠ fError := by
    have := code_lt r
    have : fError = 0x8f := rfl
    omega
  rw [if_neg hne, Exchange.memRead_getD]
  by_cases h16 : r.code = fPresetMulti
  · rw [if_pos (.inr h16)]
    have : r.reply regs = [] := by cases r <;> first | rfl | exact absurd h16 (by show ¬ (_ : Nat) = 16; simp [Request.code])
    rw [this]
    rfl
  · rw [if_neg (by simp [hne, h16])]
    rfl

theorem parseRsp_unknown (m : Mem) (a : AduRsp) (h : (m 7).toNat ∉ [3, 4, 5, 6, 16, 0x8f]) : (parseRsp m 0 a).2.2 = false := by
  simp only [List.mem_cons, List.not_mem_nil, or_false, not_or] at h
  have e1 : ¬ (m 7).toNat = fError := h.2.2.2.2.2
  have e2 : ¬ isRegFunc (m 7).toNat := fun h' => h'.elim h.1 h.2.1
  have e3 : ¬ isSingleFunc (m 7).toNat := fun h' => h'.elim h.2.2.1 h.2.2.2.1
  have e4 : ¬ (m 7).toNat = fPresetMulti := h.2.2.2.2.1
  unfold parseRsp
  simp only [Nat.zero_add, e1, e2, e3, e4, if_false]
  split <;> rfl

/-- A frame with a function code the client does not know makes it report a failure. -/
theorem client_unknown {c : Client} {p : Pending} {ps : List Pending} (h : c.Fresh p) (hp : c.pending = p :: ps) {tid unit : Nat} {pdu : List UInt8}
    (ht : tid < 65536) (hu : unit < 256) (h0 : 0 < pdu.length) (hl : pdu.length + 7 < 260) (hf : byteAt pdu 0 ∉ [3, 4, 5, 6, 16, 0x8f]) :
    ∃ c2, c.step (.data (.ok (onLink tid unit pdu))) = .ok (c2, [.rsp ⟨p.clientId, p.transactId, false, 0, []⟩]) ∧ Exchange.Ready c2 ps := by
  obtain ⟨f1, f2, f3, f4, f5, f6, _⟩ := onLink_fields ht hu hl
  have hF := framed_onLink (unit := unit) ht hu hl
  generalize onLink tid unit pdu = w at *
  obtain ⟨k1, k2⟩ := Client.frame_checks (x := w) (rest := []) h (by simp) hF
  obtain ⟨k3, k4, k5⟩ := k2 (by have := hF.1; omega)
  have hb7 : ((c.pdu.received w).buf 7).toNat = byteAt pdu 0 := by
    have := f6 0
    rw [Exchange.received_get _ h.len _ 7 (by omega), ← this]
    simp [byteAt, show 7 < w.length by omega]
  have hrec : c.receive (.ok w) = (Client.mid c (c.pdu.received w)).evaluate p := by
    have := Client.mid_receive h [] w (by simp) (by simp; have := hF.2; omega)
    rw [Client.mid_nil] at this
    simpa using this
  have hpos : (c.pdu.received w).pos = 0 := h.pos
  have hpdu : (Client.mid c (c.pdu.received w)).pdu = c.pdu.received w := rfl
  have hst : c.st = .receive := h.st
  have hop : c.opened = true := h.opened
  have hev : ∃ b, (Client.mid c (c.pdu.received w)).evaluate p = .ok (Client.mid c b,
      [.rsp ⟨p.clientId, p.transactId, false, 0, []⟩], .done) := by
    refine ⟨{ c.pdu.received w with pos := (c.pdu.received w).pos + (parseRsp (c.pdu.received w).buf 0 Client.blankRsp).1 }, ?_⟩
    unfold Client.evaluate Client.evaluateIn
    rw [hpdu, if_neg (mt k1.1 (by have := hF.1; omega)), if_neg (by rw [k3]; simp),
      if_neg (mt k4.1 (by have := hF.1; omega)), if_neg (mt k5.1 (by omega)), decodeRsp_eq _ _ (by omega), hpos]
    have hun := parseRsp_unknown (c.pdu.received w).buf Client.blankRsp (by rw [hb7]; exact hf)
    simp only [Exec.ok_bind, hun, if_true, Exec.pure_eq]
    rfl
  obtain ⟨b, hev⟩ := hev
  refine ⟨(Client.mid c b).transit .send, ?_, ?_⟩
  · simp only [Client.step, Client.onData, hst, hrec, hev, Exec.ok_bind, Exec.pure_eq]
  · refine ⟨?_, ?_, ?_, ?_⟩ <;>
      simp [Client.transit, Client.mid, hst, hop, hp, Client.exit, Client.enter]

/-- Violation of C75: an exception of the standard, whatever its code, and any answer of the standard to a read of bits are
reported as a failure without an error code. -/
theorem C75_client_deaf_violated {c : Client} {r : Request} (hr : r.Valid) {cid tid unit : Nat} (ht : tid < 65536) (hu : unit ≤ 247)
    {ps : List Pending} (h : c.Fresh (r.pending cid tid unit)) (hp : c.pending = r.pending cid tid unit :: ps) :
    (∀ e, ∃ c2, c.step (.data (.ok (onLink tid unit (r.exception e)))) = .ok (c2, [.rsp ⟨cid, tid, false, 0, []⟩]) ∧ Exchange.Ready c2 ps) ∧
    (r.bits = true → ∀ bits : List UInt8, bits.length ≤ 250 →
      ∃ c2, c.step (.data (.ok (onLink tid unit ([UInt8.ofNat r.code, UInt8.ofNat bits.length] ++ bits)))) =
        .ok (c2, [.rsp ⟨cid, tid, false, 0, []⟩]) ∧ Exchange.Ready c2 ps) := by
  have hc := code_lt r
  constructor
  · intro e
    refine client_unknown h hp ht (by omega) (by simp [Request.exception]) (by simp [Request.exception]) ?_
    show (UInt8.ofNat (r.code + 0x80)).toNat ∉ _
    rw [toNat_ofNat_small _ (by omega)]
    have : r.code ≠ 15 := by cases r <;> simp [Request.code]
    simp only [List.mem_cons, List.not_mem_nil, or_false]
    omega
  · intro hb bits hl
    refine client_unknown h hp ht (by omega) (by simp) (by simp; omega) ?_
    show (UInt8.ofNat r.code).toNat ∉ _
    rw [toNat_ofNat_small _ (by omega)]
    have : r.code = 1 ∨ r.code = 2 := by cases r <;> simp_all [Request.bits, Request.code]
    simp only [List.mem_cons, List.not_mem_nil, or_false]
    omega

/-! ## Non-vacuity -/

example : (Request.writeRegisters 7 [0x1234, 5]).pdu = [16, 0, 7, 0, 2, 4, 0x12, 0x34, 0, 5] ∧
    onLink 258 9 (Request.writeCoil 3 true).pdu = [1, 2, 0, 0, 0, 6, 9, 5, 0, 3, 0xFF, 0] ∧
    (Request.writeRegisters 7 [0x1234, 5]).Valid ∧ (Request.readHolding 7 2).Fits [3, 4] := by
  simp [Request.pdu, onLink, word, Request.coil, Request.Valid, Request.Fits]

/-- The effects of a history of a new session, the request forwarded and the answer of the standard. -/
example : Session.effects [.start, .data (.ok (onLink 258 9 (Request.readHolding 7 2).pdu)), .rsp ⟨258, 0, true, [0x34, 0x12, 5, 0]⟩ true] =
    some [.fwd ⟨258, 3, 9, 7, 2, 0, []⟩, .frame [1, 2, 0, 0, 0, 7, 9, 3, 4, 0x12, 0x34, 0, 5]] := by decide +kernel

/-- Switching a coil on: the application sees the value 0xFF00; confirming it sends nothing, and the only confirmation that is sent
says 0x00FF (the quantity is that of an earlier request, coil writes do not set it). -/
example : Session.effects [.start, .data (.ok (onLink 258 9 (Request.writeCoil 3 true).pdu)), .rsp ⟨258, 0, true, [0, 0xFF]⟩ true] =
      some [.fwd ⟨258, 5, 9, 3, 2, 2, [0, 0xFF]⟩] ∧
    Session.effects [.start, .data (.ok (onLink 258 9 (Request.writeCoil 3 true).pdu)), .rsp ⟨258, 0, true, [0xFF, 0]⟩ true] =
      some [.fwd ⟨258, 5, 9, 3, 2, 2, [0, 0xFF]⟩, .frame [1, 2, 0, 0, 0, 6, 9, 5, 0, 3, 0, 0xFF]] := by decide +kernel

/-- Write multiple coils (function 15) is dropped together with the read that follows. -/
example : Session.effects [.start, .data (.ok (onLink 1 9 [15, 0, 0, 0, 1, 1, 1])), .data (.ok (onLink 2 9 (Request.readHolding 7 2).pdu))] =
    some [] := by decide +kernel

end Standard

end Uscada.Modbus
