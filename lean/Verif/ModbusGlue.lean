import Verif.SegmentationProps
/-!
# C12: requests that arrive together
-/

namespace Uscada.Modbus.Session

/-- The buffer holds more than the frame it begins with. -/
structure Clogged (s : Session) : Prop where
  st : s.st = .wait
  link : s.link = true
  timer : s.timer = true
  opened : s.opened = true
  hdr : 6 ≤ s.pdu.len
  more : beAt s.pdu.buf 4 + 6 < s.pdu.len
  small : beAt s.pdu.buf 4 + 6 < 260
  armed : s.armed = true
  cap : s.adu.dataCap = 260
  nb : s.adu.numBytes ≤ 255

theorem clogged_evaluate {s : Session} (h1 : 6 ≤ s.pdu.len) (h2 : beAt s.pdu.buf 4 + 6 < s.pdu.len) (h3 : beAt s.pdu.buf 4 + 6 < 260) :
    s.evaluate = .ok (s, [], .done) := by
  have hp : aduPktLen s.pdu = beAt s.pdu.buf 4 := rfl
  have hh : aduHdrLen = 6 := rfl
  have hm : maxAduLen = 260 := rfl
  have e1 : isAduHdrReceived s.pdu = true := by unfold isAduHdrReceived; exact decide_eq_true (by omega)
  have e2 : isAduDataLenValid s.pdu = true := by unfold isAduDataLenValid; exact decide_eq_true (by omega)
  have e3 : isAduReceived s.pdu = true := by unfold isAduReceived; exact decide_eq_true (by omega)
  have e4 : isAduValid s.pdu = false := by
    unfold isAduValid
    rw [Bool.and_eq_false_iff]
    exact .inr (beq_eq_false_iff_ne.2 (by omega))
  simp [evaluate, e1, e2, e3, e4]

theorem beAt_received (b : PduBuf) (x : List UInt8) (h : 6 ≤ b.len) : beAt (b.received x).buf 4 = beAt b.buf 4 := by
  unfold PduBuf.received beAt memWrite
  dsimp only
  rw [if_neg (by omega), if_neg (by omega)]

theorem Clogged.data {s : Session} (h : s.Clogged) (x : List UInt8) : ∃ t, s.step (.data (.ok x)) = .ok (t, []) ∧ t.Clogged := by
  obtain ⟨st, pdu, adu, link, timer, opened, armed⟩ := s
  obtain ⟨h1, h2, h3, h4, h5, h6, h7, h8, h9, h10⟩ := h
  dsimp only at h1 h2 h3 h4 h5 h6 h7 h8 h9 h10
  subst h1 h2 h3 h4 h8
  by_cases hl : pdu.len > maxAduLen
  · exact ⟨⟨.wait, pdu, adu, true, true, true, true⟩, by simp [step, onData, receive, hl], ⟨rfl, rfl, rfl, rfl, h5, h6, h7, rfl, h9, h10⟩⟩
  · have hb := beAt_received pdu (x.take pdu.capacity) h5
    have hlen : pdu.len ≤ (pdu.received (x.take pdu.capacity)).len := by simp [PduBuf.received]
    have e := clogged_evaluate (s := ⟨.wait, pdu.received (x.take pdu.capacity), adu, true, true, true, true⟩) (by dsimp only; omega) (by dsimp only; omega)
      (by dsimp only; omega)
    exact ⟨⟨.wait, pdu.received (x.take pdu.capacity), adu, true, true, true, true⟩, by simp [step, onData, receive, hl, e],
      ⟨rfl, rfl, rfl, rfl, by dsimp only; omega, by dsimp only; omega, by dsimp only; omega, rfl, h9, h10⟩⟩

theorem Clogged.pieces (ps : List (List UInt8)) : ∀ {s : Session}, s.Clogged → ∃ t os, s.run (Session.pieces ps) = .ok (t, os) ∧ outs os = [] ∧ t.Clogged := by
  induction ps with
  | nil => intro s h; exact ⟨s, [], rfl, rfl, h⟩
  | cons x ps ih =>
    intro s h
    obtain ⟨t, h1, h2⟩ := h.data x
    obtain ⟨u, os, h3, h4, h5⟩ := ih h2
    refine ⟨u, (.data (.ok x), []) :: os, ?_, by simpa [outs] using h4, h5⟩
    simp only [Session.pieces, List.map_cons, run, h1] at h3 ⊢
    simp only [Exec.ok_bind, h3, Exec.pure_eq]

/-- Violation of C12, always: whatever frame arrives together with at least one more byte is dropped, and so is everything that arrives after it, until the
timer of the session expires, which empties the buffer. -/
theorem C12_every_coalesced_violated {s : Session} (h : s.Fresh) {w : List UInt8} (hf : Framed w) {rest : List UInt8} (hr : rest ≠ []) (ps : List (List UInt8)) :
    ∃ t os u, s.run (Session.pieces ((w ++ rest) :: ps)) = .ok (t, os) ∧ outs os = [] ∧ t.step .timer = .ok (u, []) ∧ u.Fresh := by
  have hw := hf.1
  have hw2 := hf.2
  have hrl : 0 < rest.length := List.length_pos_iff.2 hr
  have hcap : s.pdu.capacity = 512 := by simp [PduBuf.capacity, h.len]; rfl
  have hp : (w ++ rest).take s.pdu.capacity = w ++ rest.take (512 - w.length) := by
    rw [hcap, List.take_append, List.take_of_length_le (by omega)]
  have hb : beAt (s.pdu.received (w ++ rest.take (512 - w.length))).buf 4 = Client.wordAt w 4 := by
    have := beAt_prefix s.pdu h.len (w ++ rest.take (512 - w.length)) [] (by simp; omega)
    rw [this, List.append_nil, wordAt_append _ _ _ (by omega)]
  have hl : w.length < (s.pdu.received (w ++ rest.take (512 - w.length))).len := by
    simp [PduBuf.received, h.len]
    omega
  have he := clogged_evaluate (s := { s with pdu := s.pdu.received (w ++ rest.take (512 - w.length)) }) (by dsimp only; omega) (by dsimp only; omega)
    (by dsimp only; omega)
  have hst : s.step (.data (.ok (w ++ rest))) = .ok (waits { s with pdu := s.pdu.received (w ++ rest.take (512 - w.length)) }, []) := by
    have hm : ¬ s.pdu.len > maxAduLen := by rw [h.len]; decide
    have ht := transit_wait (s := { s with pdu := s.pdu.received (w ++ rest.take (512 - w.length)) }) h.st h.timer
    clear hb hl hcap
    obtain ⟨st, pdu, adu, link, timer, opened, armed⟩ := s
    obtain ⟨a1, a2, a3, a4, a5, a6, a7, a8, a9⟩ := h
    dsimp only at a1 a2 a3 a4 a5 hp he hm ht
    subst a1 a2 a3 a4 a5
    simp [step, onData, receive, hm, hp, he, ht]
  have hc : (waits { s with pdu := s.pdu.received (w ++ rest.take (512 - w.length)) }).Clogged :=
    ⟨rfl, h.link, h.timer, h.opened, by simp only [waits]; omega, by simp only [waits]; omega, by simp only [waits]; omega, rfl, h.cap, h.nb⟩
  obtain ⟨t, os, h1, h2, h3⟩ := hc.pieces ps
  refine ⟨t, (.data (.ok (w ++ rest)), []) :: os, ready { t with armed := false }, ?_, by simpa [outs] using h2, ?_, ⟨rfl, h3.link, h3.timer, rfl, h3.opened, rfl, rfl, h3.cap, h3.nb⟩⟩
  · simp only [Session.pieces, List.map_cons, run, hst] at h1 ⊢
    simp only [Exec.ok_bind, h1, Exec.pure_eq]
  · have := transit_connected (s := { t with armed := false }) (by simp [h3.st]) h3.timer
    simp only [h3.st] at this
    simp only [step, h3.armed, if_true, onTimer, h3.st, this]

/-- Non-vacuity: two acceptable requests together, then a third by itself, all dropped; after the timer the same request is forwarded. -/
example : Framed (sampleRead 5) ∧ AcceptableReq (sampleRead 5) ∧
    effects [.start, .data (.ok (sampleRead 5 ++ sampleRead 6)), .data (.ok (sampleRead 7))] = some [] ∧
    effects [.start, .data (.ok (sampleRead 5 ++ sampleRead 6)), .data (.ok (sampleRead 7)), .timer, .data (.ok (sampleRead 7))] = some [.fwd (sampleFwd 7)] := by
  unfold Framed
  decide +kernel

end Uscada.Modbus.Session
