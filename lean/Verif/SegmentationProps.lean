import Verif.ModbusSessionProps
/-!
# C12: Modbus reception and TCP segmentation

A frame reaches the receiver cut into pieces.  A server session handles every cut like the whole frame.
A client does so only when no proper prefix ends in the window where `isAduReceived` already holds (it compares
the total length with the length field, which does not count the six header bytes).
-/

namespace Uscada.Modbus

open Client (wordAt byteAt content_received wordAt_content swapPairs)

theorem received_append (b : PduBuf) (p c : List UInt8) :
    b.received (p ++ c) = (b.received p).received c := by
  simp only [PduBuf.received, memWrite_append, List.length_append, Nat.add_assoc]

theorem received_nil (b : PduBuf) : b.received [] = b := by
  have : memWrite b.buf b.len [] = b.buf := by
    funext i; simp only [memWrite, List.length_nil, Nat.add_zero]; rw [if_neg (by omega)]
  simp [PduBuf.received, this]

theorem wordAt_append (p c : List UInt8) (i : Nat) (h : i + 2 ≤ p.length) : wordAt (p ++ c) i = wordAt p i := by
  have hi : ∀ j, j < p.length → (p ++ c).getD j 0 = p.getD j 0 := by
    intro j hj
    rw [List.getD_eq_getElem?_getD, List.getD_eq_getElem?_getD, List.getElem?_append_left hj]
  simp only [wordAt, byteAt]
  rw [hi _ (by omega), hi _ (by omega)]

/-- The length field of a buffer that was empty and holds a prefix of `w` with the header. -/
theorem beAt_prefix (b : PduBuf) (hb : b.len = 0) (p rest : List UInt8) (h : 6 ≤ p.length) :
    beAt (b.received p).buf 4 = wordAt (p ++ rest) 4 := by
  rw [wordAt_append _ _ _ (by omega), ← wordAt_content (b.received p) 4 (by simp [PduBuf.received]; omega),
    content_received]
  have : b.content = [] := by
    apply List.eq_nil_of_length_eq_zero
    simp [PduBuf.content, hb]
  rw [this, List.nil_append]

/-- A complete frame of a length the code accepts, whatever its content. -/
def Framed (w : List UInt8) : Prop := w.length = wordAt w 4 + 6 ∧ w.length < 260

namespace Session

/-- A session waiting for the first byte of a request, with an open link. -/
structure Fresh (s : Session) : Prop where
  st : s.st = .connected
  link : s.link = true
  timer : s.timer = true
  armed : s.armed = true
  opened : s.opened = true
  pos : s.pdu.pos = 0
  len : s.pdu.len = 0
  cap : s.adu.dataCap = 260
  nb : s.adu.numBytes ≤ 255

/-- The session in state `x` with the receive buffer `b`. -/
def mid (s : Session) (x : SSt) (b : PduBuf) : Session :=
  { st := x, pdu := b, adu := s.adu, link := s.link, timer := s.timer, opened := s.opened, armed := s.armed }

/-- The state of a session that received `n` bytes of a frame with length field `l`. -/
def stOf (l n : Nat) : SSt := if n < 6 ∨ n < l then .connected else .wait

/-- The session after it received the part `p` of a frame with length field `l`. -/
def at' (s : Session) (l : Nat) (p : List UInt8) : Session := mid s (stOf l p.length) (s.pdu.received p)

/-- The session after it received the frame `w`. -/
def final (s : Session) (w : List UInt8) : Session := (mid s .wait (s.pdu.received w)).decoded

/-- What is forwarded for the frame `w`. -/
def finalOut (s : Session) (w : List UInt8) : List SOut :=
  if (parseReq (s.pdu.received w).buf 0 s.adu).2.2 then
    [.fwd (fwdOf ({ s with pdu := s.pdu.received w } : Session).decoded.adu)] else []

theorem mid_receive {s : Session} (h : Fresh s) (x : SSt) (p c : List UInt8) (hl : p.length ≤ 260)
    (hc : p.length + c.length ≤ 512) :
    (mid s x (s.pdu.received p)).receive (.ok c) = (mid s x (s.pdu.received (p ++ c))).evaluate := by
  have hlp : (s.pdu.received p).len = p.length := by simp [PduBuf.received, h.len]
  rw [receive_eq (mid s x (s.pdu.received p)) c h.link h.opened (by show (s.pdu.received p).len ≤ 260; omega)]
  have : c.take (512 - (s.pdu.received p).len) = c := List.take_of_length_le (by omega)
  show (mid s x ((s.pdu.received p).received (c.take (512 - (s.pdu.received p).len)))).evaluate = _
  rw [this, received_append]

theorem seg_step {s : Session} (h : Fresh s) {w p c rest : List UInt8} (hw : w = p ++ c ++ rest)
    (hr : rest ≠ []) (hf : Framed w) :
    (at' s (wordAt w 4) p).step (.data (.ok c)) = .ok (at' s (wordAt w 4) (p ++ c), []) := by
  have hrl : 0 < rest.length := List.length_pos_iff.2 hr
  have hwl : w.length = p.length + c.length + rest.length := by rw [hw]; simp; omega
  obtain ⟨f1, f2⟩ := hf
  have h4 : 6 ≤ p.length + c.length → beAt (s.pdu.received (p ++ c)).buf 4 = wordAt w 4 := by
    intro h6
    rw [hw]
    exact beAt_prefix _ h.len _ _ (by simp; omega)
  have hlen : (s.pdu.received (p ++ c)).len = p.length + c.length := by simp [PduBuf.received, h.len]
  have hev : ∀ x, (mid s x (s.pdu.received (p ++ c))).evaluate = .ok (mid s x (s.pdu.received (p ++ c)), [],
        if p.length + c.length < 6 ∨ p.length + c.length < wordAt w 4 then .noerror else .done) := by
    intro x
    rw [evaluate_eq (mid s x (s.pdu.received (p ++ c))) h.cap h.nb (by intro _; exact h.pos)]
    unfold evalSpec
    have e1 : (mid s x (s.pdu.received (p ++ c))).pdu = s.pdu.received (p ++ c) := rfl
    rw [e1, hlen]
    by_cases h6 : p.length + c.length < 6
    · simp [h6]
    rw [if_neg h6, h4 (by omega), if_neg (by omega)]
    by_cases h7 : p.length + c.length < wordAt w 4
    · simp [h7]
    · rw [if_neg h7, if_pos (by omega), if_neg (by omega)]
  have hstep : (at' s (wordAt w 4) p).step (.data (.ok c)) = (at' s (wordAt w 4) p).onData (.ok c) := by
    have hl : (at' s (wordAt w 4) p).link = true := h.link
    simp only [step, hl, if_true]
  rw [hstep]
  unfold at' stOf
  simp only [List.length_append]
  by_cases hp : p.length < 6 ∨ p.length < wordAt w 4
  · rw [if_pos hp]
    show (do
      let (s, o, r) ← (mid s .connected (s.pdu.received p)).receive (.ok c)
      match r with
      | .error => let (s, o') ← s.transit .init; pure (s, o ++ o')
      | .done => let (s, o') ← s.transit .wait; pure (s, o ++ o')
      | _ => pure (s, o)) = _
    rw [mid_receive h _ _ _ (by omega) (by omega), hev]
    simp only [Exec.ok_bind]
    by_cases hpc : p.length + c.length < 6 ∨ p.length + c.length < wordAt w 4
    · rw [if_pos hpc, if_pos hpc]; rfl
    · rw [if_neg hpc, if_neg hpc]
      dsimp only
      rw [transit_wait (s := mid s .connected (s.pdu.received (p ++ c))) rfl h.timer]
      simp only [waits, mid, Exec.ok_bind, Exec.pure_eq, List.append_nil, h.armed]
  · have hpc : ¬ (p.length + c.length < 6 ∨ p.length + c.length < wordAt w 4) := by omega
    rw [if_neg hp]
    show (do
      let (s, o, r) ← (mid s .wait (s.pdu.received p)).receive (.ok c)
      match r with
      | .error => let (s, o') ← s.transit .init; pure (s, o ++ o')
      | _ => pure (s, o)) = _
    rw [mid_receive h _ _ _ (by omega) (by omega), hev]
    simp only [Exec.ok_bind]
    rw [if_neg hpc, if_neg hpc]
    rfl

theorem seg_last {s : Session} (h : Fresh s) {w p c : List UInt8} (hw : w = p ++ c) (hf : Framed w) :
    (at' s (wordAt w 4) p).step (.data (.ok c)) = .ok (final s w, finalOut s w) := by
  have hwl : w.length = p.length + c.length := by rw [hw]; simp
  obtain ⟨f1, f2⟩ := hf
  have h4 : beAt (s.pdu.received w).buf 4 = wordAt w 4 := by
    have := beAt_prefix s.pdu h.len w [] (by omega)
    simpa using this
  have hlen : (s.pdu.received w).len = w.length := by simp [PduBuf.received, h.len]
  have hev : ∀ x, (mid s x (s.pdu.received w)).evaluate =
      .ok ((mid s x (s.pdu.received w)).decoded, finalOut s w, .done) := by
    intro x
    rw [evaluate_eq (mid s x (s.pdu.received w)) h.cap h.nb (by intro _; exact h.pos)]
    unfold evalSpec
    have e1 : (mid s x (s.pdu.received w)).pdu = s.pdu.received w := rfl
    rw [e1, hlen, if_neg (by omega), h4, if_neg (by omega), if_neg (by omega), if_neg (by omega)]
    rfl
  have hstep : (at' s (wordAt w 4) p).step (.data (.ok c)) = (at' s (wordAt w 4) p).onData (.ok c) := by
    have hl : (at' s (wordAt w 4) p).link = true := h.link
    simp only [step, hl, if_true]
  rw [hstep]
  unfold at' stOf
  by_cases hp : p.length < 6 ∨ p.length < wordAt w 4
  · rw [if_pos hp]
    show (do
      let (s, o, r) ← (mid s .connected (s.pdu.received p)).receive (.ok c)
      match r with
      | .error => let (s, o') ← s.transit .init; pure (s, o ++ o')
      | .done => let (s, o') ← s.transit .wait; pure (s, o ++ o')
      | _ => pure (s, o)) = _
    rw [mid_receive h _ _ _ (by omega) (by omega), ← hw, hev]
    simp only [Exec.ok_bind]
    rw [transit_wait (s := (mid s .connected (s.pdu.received w)).decoded) rfl h.timer]
    simp only [waits, mid, decoded, final, Exec.ok_bind, Exec.pure_eq, List.append_nil, h.armed]
  · rw [if_neg hp]
    show (do
      let (s, o, r) ← (mid s .wait (s.pdu.received p)).receive (.ok c)
      match r with
      | .error => let (s, o') ← s.transit .init; pure (s, o ++ o')
      | _ => pure (s, o)) = _
    rw [mid_receive h _ _ _ (by omega) (by omega), ← hw, hev]
    simp only [Exec.ok_bind]
    rfl

/-- Reception of a frame in pieces. -/
def pieces (ps : List (List UInt8)) : List Ev := ps.map fun p => .data (.ok p)

theorem at_nil {s : Session} (h : Fresh s) (l : Nat) : at' s l [] = s := by
  have := h.st
  obtain ⟨st, pdu, adu, link, timer, opened, armed⟩ := s
  simp_all [at', received_nil, mid, stOf]

theorem seg_run {s : Session} (h : Fresh s) {w : List UInt8} (hf : Framed w) (ps : List (List UInt8))
    (p : List UInt8) (hp : w = p ++ ps.flatten) (hne : ∀ c ∈ ps, c ≠ []) (hps : ps ≠ []) :
    ∃ os, (at' s (wordAt w 4) p).run (pieces ps) = .ok (final s w, os) ∧ outs os = finalOut s w := by
  induction ps generalizing p with
  | nil => exact absurd rfl hps
  | cons c ps ih =>
    by_cases hl : ps = []
    · subst hl
      have hw : w = p ++ c := by simpa using hp
      refine ⟨[(.data (.ok c), finalOut s w)], ?_, by simp [outs]⟩
      simp [pieces, run, seg_last h hw hf]
    · have hfl : ps.flatten ≠ [] := by
        intro h0
        rw [List.flatten_eq_nil_iff] at h0
        cases ps with
        | nil => exact hl rfl
        | cons d ps => exact hne d (by simp) (h0 d (by simp))
      have hw : w = p ++ c ++ ps.flatten := by simpa using hp
      obtain ⟨os, g1, g2⟩ := ih (p ++ c) hw (fun d hd => hne d (by simp [hd])) hl
      refine ⟨(.data (.ok c), []) :: os, ?_, by simpa [outs] using g2⟩
      simp only [pieces, List.map_cons, run] at g1 ⊢
      rw [seg_step h hw hfl hf]
      simp only [Exec.ok_bind, g1, Exec.pure_eq]

/-- C12, server: a frame cut into any non-empty pieces leaves the session in the same state and has
the same effect as the whole frame; a request that is acceptable is forwarded once, as the frame says, and any
other frame is not forwarded. -/
theorem C12_session_any_cut {s : Session} (h : Fresh s) {w : List UInt8} (hf : Framed w) (ps : List (List UInt8))
    (hp : ps.flatten = w) (hne : ∀ c ∈ ps, c ≠ []) :
    ∃ s' os os', s.run (pieces ps) = .ok (s', os) ∧ s.run [.data (.ok w)] = .ok (s', os') ∧ outs os = outs os' ∧
      (AcceptableReq w → ∃ r, outs os = [.fwd r] ∧ r.view = frameReq w) ∧
      (¬ AcceptableReq w → outs os = []) := by
  have hwl : 6 ≤ w.length := by have := hf.1; omega
  have hps : ps ≠ [] := by
    rintro rfl
    simp at hp
    subst hp
    simp at hwl
  obtain ⟨os, h1, h2⟩ := seg_run h hf ps [] (by simp [hp]) hne hps
  obtain ⟨os', h3, h4⟩ := seg_run h hf [w] [] (by simp) (by intro c hc; simp at hc; subst hc; intro h0; rw [h0] at hwl; simp at hwl) (by simp)
  rw [at_nil h] at h1 h3
  refine ⟨_, os, os', h1, h3, by rw [h2, h4], ?_⟩
  have hcont : (s.pdu.received w).content = w := by
    rw [content_received]
    have : s.pdu.content = [] := by
      apply List.eq_nil_of_length_eq_zero
      simp [PduBuf.content, h.len]
    rw [this, List.nil_append]
  have hl : (s.pdu.received w).len = w.length := by simp [PduBuf.received, h.len]
  have h4 : beAt (s.pdu.received w).buf 4 = wordAt w 4 := by
    have := beAt_prefix s.pdu h.len w [] hwl
    simpa using this
  have hd := decoded_spec { s with pdu := s.pdu.received w } (by dsimp only; omega)
    (by dsimp only; have := hf.1; omega) (by dsimp only; have := hf.1; have := hf.2; omega)
  dsimp only at hd
  rw [hcont] at hd
  rw [h2]
  unfold finalOut
  constructor
  · intro ha
    have hk := hd.1.2 ha
    rw [if_pos hk]
    exact ⟨_, rfl, (hd.2 hk).1⟩
  · intro ha
    rw [if_neg (mt hd.1.1 ha)]

/-- Every new session is ready. -/
theorem fresh_start (m : Mem) (a : AduReq) : ∃ s, (create m a).step .start = .ok (s, []) ∧ Fresh s := by
  refine ⟨ready { create m a with link := true, timer := true, opened := true }, ?_, ?_⟩
  · simp only [step, onStart, create]
    rw [← transit_connected (by simp) rfl]
  · exact ⟨rfl, rfl, rfl, rfl, rfl, rfl, rfl, rfl, by simp [ready, create]⟩

/-- Effects of a history of a session whose buffer holds zeros. -/
def effects (es : List Ev) : Option (List SOut) :=
  match (create (fun _ => 0) sampleReq).run es with
  | .ok (_, os) => some (outs os)
  | _ => none

/-- Read two holding registers of slave 9 from item 7. -/
def sampleRead (t : UInt8) : List UInt8 := [0, t, 0, 0, 0, 6, 9, 3, 0, 7, 0, 2]

/-- What is forwarded for it. -/
def sampleFwd (t : Nat) : FwdReq :=
  { transactId := t, func := 3, addr := 9, startItem := 7, numItems := 2, numBytes := 0, data := [] }

example : Framed (sampleRead 5) ∧ AcceptableReq (sampleRead 5) := by unfold Framed; decide +kernel

/-- Non-vacuity: one piece, byte by byte, and cut after the header. -/
example : effects [.start, .data (.ok (sampleRead 5))] = some [.fwd (sampleFwd 5)] ∧
    effects (.start :: pieces ((sampleRead 5).map fun b => [b])) = some [.fwd (sampleFwd 5)] ∧
    effects [.start, .data (.ok [0, 5, 0, 0, 0, 6]), .data (.ok [9, 3, 0, 7, 0, 2])] = some [.fwd (sampleFwd 5)] := by
  decide +kernel

/-- Violation of C12: two requests in one segment are both dropped, while the first is forwarded when they arrive
in two segments. -/
theorem C12_coalesced_requests_violated :
    effects [.start, .data (.ok (sampleRead 5 ++ sampleRead 6))] = some [] ∧
    effects [.start, .data (.ok (sampleRead 5)), .data (.ok (sampleRead 6))] = some [.fwd (sampleFwd 5)] := by
  decide +kernel

/-- Violation of C12: the bytes of a cut request are lost when the timer of the waiting state expires
between the pieces, because the first part already moved the session to that state; the rest is then taken as the start of
the next request. -/
theorem C12_cut_request_lost_violated :
    effects [.start, .data (.ok [0, 5, 0, 0, 0, 6]), .timer, .data (.ok [9, 3, 0, 7, 0, 2])] = some [] := by
  decide +kernel

end Session

/-! ## Client -/

namespace Client

open AduStorage (Pending)

/-- A client that has sent the request `p` and waits for the first byte of the answer. -/
structure Fresh (c : Client) (p : Pending) : Prop where
  st : c.st = .receive
  opened : c.opened = true
  pos : c.pdu.pos = 0
  len : c.pdu.len = 0
  pending : ∃ ps, c.pending = p :: ps

/-- The client with the receive buffer `b`. -/
def mid (c : Client) (b : PduBuf) : Client :=
  { st := c.st, pending := c.pending, pdu := b, timer := c.timer, opened := c.opened }

theorem mid_receive {c : Client} {q : Pending} (h : Fresh c q) (p d : List UInt8) (hl : p.length ≤ 260)
    (hc : p.length + d.length ≤ 512) :
    (mid c (c.pdu.received p)).receive (.ok d) = (mid c (c.pdu.received (p ++ d))).evaluate q := by
  have hA : maxAduLen = 260 := rfl
  have hM : maxLen = 512 := rfl
  have hlp : (c.pdu.received p).len = p.length := by simp [PduBuf.received, h.len]
  obtain ⟨ps, hps⟩ := h.pending
  unfold receive
  have e1 : (mid c (c.pdu.received p)).pdu = c.pdu.received p := rfl
  have e2 : (mid c (c.pdu.received p)).opened = true := h.opened
  have e3 : (mid c (c.pdu.received p)).pending = q :: ps := hps
  rw [e1, if_neg (by omega), e2, if_neg (by simp)]
  dsimp only
  simp only [e3]
  have : d.take (c.pdu.received p).capacity = d := by
    apply List.take_of_length_le
    unfold PduBuf.capacity
    omega
  rw [this, received_append]
  have hm : mid c ((c.pdu.received p).received d) = { st := (mid c (c.pdu.received p)).st, pending := q :: ps, pdu := (c.pdu.received p).received d, timer := (mid c (c.pdu.received p)).timer, opened := true } := by
    rw [← hps, ← h.opened]; rfl
  rw [hm]

/-- Checks of the framing on a buffer holding `x`, the start of a frame with length field `l`. -/
theorem frame_checks {c : Client} {q : Pending} (h : Fresh c q) {w x rest : List UInt8} (hw : w = x ++ rest)
    (hf : Framed w) :
    (isAduHdrReceived (c.pdu.received x) = false ↔ x.length < 6) ∧
    (6 ≤ x.length → isAduDataLenValid (c.pdu.received x) = true ∧
      (isAduReceived (c.pdu.received x) = false ↔ x.length < wordAt w 4) ∧
      (isAduValid (c.pdu.received x) = false ↔ x.length < w.length)) := by
  have hA : maxAduLen = 260 := rfl
  have hlen : (c.pdu.received x).len = x.length := by simp [PduBuf.received, h.len]
  have hwl : w.length = x.length + rest.length := by rw [hw]; simp
  obtain ⟨f1, f2⟩ := hf
  refine ⟨by simp [isAduHdrReceived, aduHdrLen, hlen], fun h6 => ?_⟩
  have h4 : aduPktLen (c.pdu.received x) = wordAt w 4 := by
    have := beAt_prefix c.pdu h.len x rest h6
    rw [← hw] at this
    rw [← this]
    simp [aduPktLen, aduLenOffset, beAt]
  refine ⟨?_, ?_, ?_⟩
  · simp only [isAduDataLenValid, h4, aduHdrLen, hA, decide_eq_true_eq]; omega
  · simp [isAduReceived, h4, hlen]
  · simp [isAduValid, h4, hlen, aduHdrLen, hA]; omega

/-- A prefix after which the client goes on receiving. -/
def SafePrefix (w : List UInt8) (n : Nat) : Prop := n < 6 ∨ n < wordAt w 4

theorem seg_step {c : Client} {q : Pending} (h : Fresh c q) {w p d rest : List UInt8} (hw : w = p ++ d ++ rest)
    (hf : Framed w) (hs : SafePrefix w (p ++ d).length) :
    (mid c (c.pdu.received p)).step (.data (.ok d)) = .ok (mid c (c.pdu.received (p ++ d)), []) := by
  have hwl : w.length = (p ++ d).length + rest.length := by rw [hw, List.length_append]
  have hl := hf.2
  have hpl : (p ++ d).length = p.length + d.length := List.length_append
  have hst : (mid c (c.pdu.received p)).st = .receive := h.st
  simp only [step, onData, hst]
  rw [mid_receive h _ _ (by omega) (by omega)]
  have hev : (mid c (c.pdu.received (p ++ d))).evaluate q = .ok (mid c (c.pdu.received (p ++ d)), [], .noerror) := by
    unfold evaluate evaluateIn
    have e1 : (mid c (c.pdu.received (p ++ d))).pdu = c.pdu.received (p ++ d) := rfl
    rw [e1]
    obtain ⟨k1, k2⟩ := frame_checks h hw hf
    by_cases h6 : (p ++ d).length < 6
    · rw [if_pos (k1.2 h6)]
    · obtain ⟨k3, k4, _⟩ := k2 (by omega)
      rw [if_neg (mt k1.1 h6), if_neg (by rw [k3]; simp), if_pos (k4.2 (by unfold SafePrefix at hs; omega))]
  rw [hev]
  rfl

/-- The buffer does not matter once the client left the receive state with a reset to come. -/
theorem seg_run {c : Client} {q : Pending} (h : Fresh c q) {w : List UInt8} (hf : Framed w) (ds : List (List UInt8))
    (p : List UInt8) (hp : w = p ++ ds.flatten) (hds : ds ≠ [])
    (hs : ∀ n, n < ds.length → 0 < n → SafePrefix w (p ++ (ds.take n).flatten).length) :
    (mid c (c.pdu.received p)).run (ds.map fun d => .data (.ok d)) =
      ((mid c (c.pdu.received p)).step (.data (.ok ds.flatten)) >>= fun x =>
        .ok (x.1, ((ds.dropLast).map fun d => (Ev.data (.ok d), [])) ++ [(.data (.ok (ds.getLast hds)), x.2)])) := by
  induction ds generalizing p with
  | nil => exact absurd rfl hds
  | cons d ds ih =>
    by_cases hl : ds = []
    · subst hl
      simp only [List.map_cons, List.map_nil, run, List.flatten_cons, List.flatten_nil, List.append_nil,
        List.dropLast_singleton, List.nil_append, List.getLast_singleton, Exec.ok_bind, Exec.pure_eq]
    · have hw : w = p ++ d ++ ds.flatten := by simpa using hp
      have hs0 : SafePrefix w (p ++ d).length := by
        have := hs 1 (by simp; exact List.length_pos_iff.2 hl) (by omega)
        simpa using this
      have ih' := ih (p ++ d) hw hl (by
        intro n h1 h2
        have := hs (n + 1) (by simp; omega) (by omega)
        simpa using this)
      simp only [List.map_cons, run]
      rw [seg_step h hw hf hs0]
      simp only [Exec.ok_bind]
      rw [ih']
      have hcomb : (mid c (c.pdu.received (p ++ d))).step (.data (.ok ds.flatten)) =
          (mid c (c.pdu.received p)).step (.data (.ok (d :: ds).flatten)) := by
        have hwl : w.length = p.length + (d.length + ds.flatten.length) := by rw [hw]; simp
        have h2 := hf.2
        have hst1 : (mid c (c.pdu.received p)).st = .receive := h.st
        have hst2 : (mid c (c.pdu.received (p ++ d))).st = .receive := h.st
        simp only [step, onData, hst1, hst2]
        rw [mid_receive h _ _ (by rw [List.length_append]; omega) (by rw [List.length_append]; omega),
          mid_receive h _ _ (by omega) (by rw [List.flatten_cons, List.length_append]; omega)]
        simp
      rw [hcomb]
      generalize (mid c (c.pdu.received p)).step (.data (.ok (d :: ds).flatten)) = x
      cases x <;> simp [List.dropLast_cons_of_ne_nil hl, List.getLast_cons hl]

theorem mid_nil (c : Client) : mid c (c.pdu.received []) = c := by
  rw [received_nil]; rfl

/-- C12, client: a frame cut into pieces has the same effect and leaves the same state as the whole
frame when every proper part that has been received is shorter than the header or than the length field. -/
theorem C12_client_safe_cuts_partial {c : Client} {q : Pending} (h : Fresh c q) {w : List UInt8} (hf : Framed w)
    (ds : List (List UInt8)) (hp : ds.flatten = w)
    (hs : ∀ n, n < ds.length → 0 < n → SafePrefix w (ds.take n).flatten.length) :
    ∀ c' o, c.step (.data (.ok w)) = .ok (c', o) →
      ∃ os, c.run (ds.map fun d => .data (.ok d)) = .ok (c', os) ∧ os.flatMap Prod.snd = o := by
  intro c' o hstep
  have hwl : 6 ≤ w.length := by have := hf.1; omega
  have hds : ds ≠ [] := by
    rintro rfl
    simp at hp
    subst hp
    simp at hwl
  have := seg_run h hf ds [] (by simp [hp]) hds (by simpa using hs)
  rw [mid_nil, hp, hstep] at this
  refine ⟨_, this, ?_⟩
  have h0 : ∀ l : List (List UInt8), (l.map fun d => (Ev.data (.ok d), ([] : List COut))).flatMap Prod.snd = [] := by
    intro l
    induction l with
    | nil => rfl
    | cons d l ih => simp
  rw [List.flatMap_append, h0]
  simp

/-- C12, client: any other cut of any frame makes the client report an error for the request and go on
to the next one, although the whole frame may be its answer. -/
theorem C12_client_bad_cut_fails {c : Client} {q : Pending} (h : Fresh c q) {w p rest : List UInt8} (hf : Framed w)
    (hw : w = p ++ rest) (hr : rest ≠ []) (hs : ¬ SafePrefix w p.length) :
    ∃ c', c.step (.data (.ok p)) = .ok (c', [.rsp (CRsp.mk q.clientId q.transactId false 0 [])]) ∧ c'.st = .send ∧ c'.pending = c.pending.tail := by
  have hrl : 0 < rest.length := List.length_pos_iff.2 hr
  have hwl : w.length = p.length + rest.length := by rw [hw, List.length_append]
  have hl := hf.2
  obtain ⟨k1, k2⟩ := frame_checks h hw hf
  unfold SafePrefix at hs
  obtain ⟨k3, k4, k5⟩ := k2 (by omega)
  have hst := h.st
  have hrec : c.receive (.ok p) = (mid c (c.pdu.received p)).evaluate q := by
    have := mid_receive h [] p (by simp) (by simp; omega)
    rw [mid_nil] at this
    simpa using this
  have hev : (mid c (c.pdu.received p)).evaluate q =
      .ok (mid c (c.pdu.received p), [rspError q.clientId q.transactId], .done) := by
    unfold evaluate evaluateIn
    have e1 : (mid c (c.pdu.received p)).pdu = c.pdu.received p := rfl
    rw [e1, if_neg (mt k1.1 (by omega)), if_neg (by rw [k3]; simp), if_neg (mt k4.1 (by omega)), if_pos (k5.2 (by omega))]
  refine ⟨(mid c (c.pdu.received p)).transit .send, ?_, ?_, ?_⟩
  · simp only [step, onData, hst]
    rw [hrec, hev]
    rfl
  · simp [transit, mid, hst, exit, enter]
  · simp [transit, mid, hst, exit, enter]

/-- Violation of C12: the answer is accepted in one piece and rejected when it is cut after the seventh byte. -/
theorem C12_client_cut_answer_violated :
    responses (connectEvs ++ [.req (sampleCall 5), .timer true true, .data (.ok (sampleAnswer 5))]) =
      some [{ clientId := 1, transactId := 5, success := true, error := 0, data := [2, 1, 4, 3] }] ∧
    responses (connectEvs ++ [.req (sampleCall 5), .timer true true, .data (.ok ((sampleAnswer 5).take 7)),
        .data (.ok ((sampleAnswer 5).drop 7))]) =
      some [{ clientId := 1, transactId := 5, success := false, error := 0, data := [] }] := by
  decide +kernel

/-- Non-vacuity: a cut after five bytes is safe. -/
example : SafePrefix (sampleAnswer 5) 5 ∧ Framed (sampleAnswer 5) ∧ ¬ SafePrefix (sampleAnswer 5) 7 ∧
    responses (connectEvs ++ [.req (sampleCall 5), .timer true true, .data (.ok ((sampleAnswer 5).take 5)),
        .data (.ok ((sampleAnswer 5).drop 5))]) =
      some [{ clientId := 1, transactId := 5, success := true, error := 0, data := [2, 1, 4, 3] }] := by
  unfold SafePrefix Framed
  decide +kernel

end Client
end Uscada.Modbus
