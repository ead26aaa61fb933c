import Verif.ModbusCodecProps
/-!
# C11: error responses without an error code
-/

namespace Uscada.Modbus

/-- Violation of C11, always: whatever the buffer held before, a response of eight bytes with the function of errors passes all checks and is decoded with the
byte that the buffer held behind it as its error code. -/
theorem C11_every_short_error_violated (m : Mem) (t1 t0 u : UInt8) (a : AduRsp) :
    ∃ b b' a', b = (PduBuf.fresh m).received [t1, t0, 0, 0, 0, 2, u, 0x8f] ∧ (isAduHdrReceived b && isAduDataLenValid b && isAduReceived b && isAduValid b) = true ∧
      decodeRsp b a = .ok (b', a', true) ∧ a'.error = (m 8).toNat ∧ a'.transactId = t1.toNat * 256 + t0.toNat ∧ a'.addr = u.toNat := by
  have hb : ∀ i, ((PduBuf.fresh m).received [t1, t0, 0, 0, 0, 2, u, 0x8f]).buf i = memWrite m 0 [t1, t0, 0, 0, 0, 2, u, 0x8f] i := fun _ => rfl
  have hl : ((PduBuf.fresh m).received [t1, t0, 0, 0, 0, 2, u, 0x8f]).len = 8 := rfl
  have hp : ((PduBuf.fresh m).received [t1, t0, 0, 0, 0, 2, u, 0x8f]).pos = 0 := rfl
  generalize hg : (PduBuf.fresh m).received [t1, t0, 0, 0, 0, 2, u, 0x8f] = b at hb hl hp ⊢
  have g0 : b.buf 0 = t1 := (hb 0).trans rfl
  have g1 : b.buf 1 = t0 := (hb 1).trans rfl
  have g2 : b.buf 2 = 0 := (hb 2).trans rfl
  have g3 : b.buf 3 = 0 := (hb 3).trans rfl
  have g4 : b.buf 4 = 0 := (hb 4).trans rfl
  have g5 : b.buf 5 = 2 := (hb 5).trans rfl
  have g6 : b.buf 6 = u := (hb 6).trans rfl
  have g7 : b.buf 7 = 0x8f := (hb 7).trans rfl
  have g8 : b.buf 8 = m 8 := (hb 8).trans rfl
  have h2 : beAt b.buf 2 = 0 := by simp [beAt, g2, g3]
  have hk : aduPktLen b = 2 := by
    have : aduPktLen b = beAt b.buf 4 := rfl
    rw [this]
    simp [beAt, g4, g5]
  have hpr : parseRsp b.buf b.pos a = (9, { a with transactId := beAt b.buf 0, addr := u.toNat, func := 0x8f, error := (m 8).toNat }, true) := by
    unfold parseRsp
    simp only [hp, Nat.zero_add, h2, ne_eq, not_true_eq_false, if_false, g6, g7, g8]
    rfl
  refine ⟨b, { b with pos := b.pos + 9 }, { a with transactId := beAt b.buf 0, addr := u.toNat, func := 0x8f, error := (m 8).toNat }, rfl, ?_, ?_, rfl, ?_, rfl⟩
  · simp only [isAduHdrReceived, isAduDataLenValid, isAduReceived, isAduValid, hk, hl]
    rfl
  · rw [decodeRsp_eq b a (by omega), hpr]
  · simp only [beAt, g0, g1]

/-- Non-vacuity: two buffers, two error codes. -/
example : decodedError ((PduBuf.fresh fun _ => 4).received [1, 2, 0, 0, 0, 2, 9, 0x8f]) = some 4 ∧
    decodedError ((PduBuf.fresh fun i => UInt8.ofNat i).received [1, 2, 0, 0, 0, 2, 9, 0x8f]) = some 8 := by
  decide +kernel

end Uscada.Modbus
