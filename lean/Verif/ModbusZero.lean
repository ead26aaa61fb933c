import Verif.SegmentationProps
/-!
# C16: error answers with the code 0
-/

namespace Uscada.Modbus.Client

open AduStorage (Pending)

/-- Violation of C16, always: whatever request a client waits for, the error answer with code 0 makes it report success without data. -/
theorem C16_every_error_zero_violated {c : Client} {q : Pending} (h : Fresh c q) {t1 t0 u : UInt8} (ht : q.transactId = t1.toNat * 256 + t0.toNat)
    (hu : q.addr = u.toNat) :
    ∃ c', c.step (.data (.ok [t1, t0, 0, 0, 0, 3, u, 0x8f, 0])) = .ok (c', [.rsp (CRsp.mk q.clientId q.transactId true 0 [])]) ∧ c'.st = .send ∧
      c'.pending = c.pending.tail := by
  have hb : ∀ i, (c.pdu.received [t1, t0, 0, 0, 0, 3, u, 0x8f, 0]).buf i = memWrite c.pdu.buf 0 [t1, t0, 0, 0, 0, 3, u, 0x8f, 0] i := by
    intro i
    simp only [PduBuf.received, h.len]
  have hl : (c.pdu.received [t1, t0, 0, 0, 0, 3, u, 0x8f, 0]).len = 9 := by simp [PduBuf.received, h.len]
  have hp : (c.pdu.received [t1, t0, 0, 0, 0, 3, u, 0x8f, 0]).pos = 0 := h.pos
  have hrec : c.receive (.ok [t1, t0, 0, 0, 0, 3, u, 0x8f, 0]) = (mid c (c.pdu.received [t1, t0, 0, 0, 0, 3, u, 0x8f, 0])).evaluate q := by
    have := mid_receive h [] [t1, t0, 0, 0, 0, 3, u, 0x8f, 0] (by simp) (by simp)
    rw [mid_nil] at this
    simpa using this
  generalize c.pdu.received [t1, t0, 0, 0, 0, 3, u, 0x8f, 0] = b at hb hl hp hrec
  have g0 : b.buf 0 = t1 := (hb 0).trans rfl
  have g1 : b.buf 1 = t0 := (hb 1).trans rfl
  have g2 : b.buf 2 = 0 := (hb 2).trans rfl
  have g3 : b.buf 3 = 0 := (hb 3).trans rfl
  have g4 : b.buf 4 = 0 := (hb 4).trans rfl
  have g5 : b.buf 5 = 3 := (hb 5).trans rfl
  have g6 : b.buf 6 = u := (hb 6).trans rfl
  have g7 : b.buf 7 = 0x8f := (hb 7).trans rfl
  have g8 : b.buf 8 = 0 := (hb 8).trans rfl
  have h2 : beAt b.buf 2 = 0 := by simp [beAt, g2, g3]
  have hk : aduPktLen b = 3 := by
    have : aduPktLen b = beAt b.buf 4 := rfl
    rw [this]
    simp [beAt, g4, g5]
  have hpr : parseRsp b.buf b.pos blankRsp = (9, { blankRsp with transactId := beAt b.buf 0, addr := u.toNat, func := 0x8f, error := 0 }, true) := by
    unfold parseRsp
    simp only [hp, Nat.zero_add, h2, ne_eq, not_true_eq_false, if_false, g6, g7, g8]
    rfl
  have c1 : isAduHdrReceived b = true := by simp only [isAduHdrReceived, hl]; rfl
  have c2 : isAduDataLenValid b = true := by simp only [isAduDataLenValid, hk]; rfl
  have c3 : isAduReceived b = true := by simp only [isAduReceived, hk, hl]; rfl
  have c4 : isAduValid b = true := by simp only [isAduValid, hk, hl]; rfl
  have h0 : beAt b.buf 0 = q.transactId := by rw [ht]; simp only [beAt, g0, g1]
  have hev : (mid c b).evaluate q = .ok (mid c { b with pos := b.pos + 9 }, [rspModbusError q.clientId q.transactId 0], .done) := by
    unfold evaluate evaluateIn
    have e1 : (mid c b).pdu = b := rfl
    rw [e1, c1, c2, c3, c4, decodeRsp_eq b blankRsp (by omega), hpr]
    simp only [Exec.ok_bind, h0, hu]
    simp [fError, mid]
  refine ⟨(mid c { b with pos := b.pos + 9 }).transit .send, ?_, ?_, ?_⟩
  · simp only [step, onData, h.st]
    rw [hrec, hev]
    rfl
  · simp [transit, mid, h.st, exit, enter]
  · simp [transit, mid, h.st, exit, enter]

/-- Non-vacuity: the request was to read two registers; the same answer with code 2 is reported as error 2. -/
example : responses (connectEvs ++ [.req (sampleCall 5), .timer true true, .data (.ok [0, 5, 0, 0, 0, 3, 9, 0x8f, 0])]) =
      some [{ clientId := 1, transactId := 5, success := true, error := 0, data := [] }] ∧
    responses (connectEvs ++ [.req (sampleCall 5), .timer true true, .data (.ok [0, 5, 0, 0, 0, 3, 9, 0x8f, 2])]) =
      some [{ clientId := 1, transactId := 5, success := true, error := 2, data := [] }] := by
  decide +kernel

end Uscada.Modbus.Client
