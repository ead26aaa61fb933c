import Verif.Stream
/-!
# C77: bytes between two links

A frame that the kernel takes as a whole is understood once, whatever portions it arrives in and whenever the event loop runs.  A
frame of which the kernel takes only a part is reported as sent all the same; it never reaches the application at the other end,
and what follows on the connection is taken for its rest.  Bytes that a session leaves unread are not reported again.
-/

namespace Uscada.Stream

open Modbus (Rx Session SOut Framed AcceptableReq frameReq FwdReq Client)
open Modbus.Client (wordAt)

/-! ## Sessions -/

theorem session_na {s : Session} (hl : s.link = true) (ho : s.opened = true) (h : s.st = .connected ∨ s.st = .wait) :
    s.step (.data .na) = .ok (s, []) ∨ (s.pdu.len > Modbus.maxAduLen) := by
  by_cases hlen : s.pdu.len > Modbus.maxAduLen
  · exact .inr hlen
  refine .inl ?_
  rcases h with h | h <;>
  simp [Session.step, hl, Session.onData, h, Session.receive, hlen, ho]

/-- What the session has done when it has read the part `x` of the frame `w`. -/
def Progress (s : Session) (w x : List UInt8) (z : Session × List SOut) : Prop :=
  x.length ≤ w.length ∧ if x = w then z = (s.final w, s.finalOut w) else z = (s.at' (wordAt w 4) x, [])

theorem st_at (s : Session) (l : Nat) (x : List UInt8) : (s.at' l x).st = .connected ∨ (s.at' l x).st = .wait := by
  show Session.stOf l x.length = _ ∨ Session.stOf l x.length = _
  unfold Session.stOf
  split <;> simp

theorem len_at {s : Session} (h : s.Fresh) (l : Nat) (x : List UInt8) : (s.at' l x).pdu.len = x.length := by
  show (s.pdu.received x).len = x.length
  simp [Modbus.PduBuf.received, h.len]

theorem len_final {s : Session} (h : s.Fresh) (w : List UInt8) : (s.final w).pdu.len = w.length := by
  show (s.pdu.received w).len = w.length
  simp [Modbus.PduBuf.received, h.len]

theorem wants_at {s : Session} (h : s.Fresh) (l : Nat) (x : List UInt8) (os : List SOut) (hx : x.length ≤ 260) :
    session.wants (s.at' l x, os) = some (512 - x.length) := by
  have h1 : (s.at' l x).link = true := h.link
  have h2 : (s.at' l x).opened = true := h.opened
  have h3 : (s.at' l x).st ≠ .init := by rcases st_at s l x with h | h <;> rw [h] <;> simp
  have h4 := len_at h l x
  simp only [session]
  rw [if_pos ⟨h1, h3, h2, by rw [h4]; exact hx⟩]
  simp [Modbus.PduBuf.capacity, h4, Modbus.maxLen]

theorem wants_final {s : Session} (h : s.Fresh) (w : List UInt8) (os : List SOut) (hx : w.length ≤ 260) :
    session.wants (s.final w, os) = some (512 - w.length) := by
  have h1 : (s.final w).link = true := h.link
  have h2 : (s.final w).opened = true := h.opened
  have h3 : (s.final w).st ≠ .init := by show Modbus.SSt.wait ≠ _; simp
  have h4 := len_final h w
  simp only [session]
  rw [if_pos ⟨h1, h3, h2, by rw [h4]; exact hx⟩]
  simp [Modbus.PduBuf.capacity, h4, Modbus.maxLen]

theorem na_at {s : Session} (h : s.Fresh) (l : Nat) (x : List UInt8) (os : List SOut) (hx : x.length ≤ 260) :
    session.on (s.at' l x, os) .na = .ok (s.at' l x, os) := by
  rcases session_na (s := s.at' l x) h.link h.opened (st_at s l x) with h1 | h1
  · simp [session, h1]
  · rw [len_at h] at h1
    have : Modbus.maxAduLen = 260 := rfl
    omega

theorem na_final {s : Session} (h : s.Fresh) (w : List UInt8) (os : List SOut) (hx : w.length ≤ 260) :
    session.on (s.final w, os) .na = .ok (s.final w, os) := by
  rcases session_na (s := s.final w) h.link h.opened (.inr rfl) with h1 | h1
  · simp [session, h1]
  · rw [len_final h] at h1
    have : Modbus.maxAduLen = 260 := rfl
    omega

theorem session_delivers {s : Session} (h : s.Fresh) {w : List UInt8} (hF : Framed w) {base t : List UInt8} {p : Pipe}
    (hp : p.At base t []) (ht : t <+: w) (ops : List Op) :
    ∃ z p' x' y', go session (s, []) p ops = .ok (z, p') ∧ Progress s w x' z ∧ t = x' ++ y' ∧ p'.At base t x' := by
  have hwl : w.length ≤ 260 := by have := hF.2; omega
  have hne : w ≠ [] := by
    intro h0
    have := hF.1
    rw [h0] at this
    simp at this
  obtain ⟨tl, htl⟩ := ht
  have len : ∀ x y, t = x ++ y → x.length + y.length ≤ w.length := by
    intro x y he
    rw [← htl, he]
    simp
  refine deliver (I := Progress s w) ?_ ?_ ?_ ?_ ops hp (by simp : t = [] ++ t) ?_
  · intro x y z hI he hy
    have hl := len x y he
    have hyl := List.length_pos_iff.2 hy
    have hx : x ≠ w := by
      intro h0
      rw [h0] at hl
      omega
    have hI := hI.2
    rw [if_neg hx] at hI
    subst hI
    exact ⟨_, wants_at h _ _ _ (by omega), by omega⟩
  · intro z hI
    have hl := len t [] (by simp)
    simp only [List.length_nil, Nat.add_zero] at hl
    have hI := hI.2
    split at hI
    · subst hI
      rw [wants_final h _ _ hwl]
      simp
      omega
    · subst hI
      rw [wants_at h _ _ _ (by omega)]
      simp
      omega
  · intro x z hI
    have hI' := hI.2
    have hxl := hI.1
    refine ⟨z, ?_, hI⟩
    split at hI'
    · rw [hI']; exact na_final h _ _ hwl
    · rw [hI']; exact na_at h _ _ _ (by omega)
  · intro x d y z hI he hd
    have hdl := List.length_pos_iff.2 hd
    have hl := len (x ++ d) y he
    rw [List.length_append] at hl
    have hx : x ≠ w := by
      intro h0
      rw [h0] at hl
      omega
    have hI := hI.2
    rw [if_neg hx] at hI
    subst hI
    have hw : w = x ++ d ++ (y ++ tl) := by rw [← htl, he, List.append_assoc]
    by_cases hr : y ++ tl = []
    · rw [hr, List.append_nil] at hw
      refine ⟨(s.final w, s.finalOut w), ?_, by rw [List.length_append]; omega, by rw [if_pos hw.symm]⟩
      simp [session, Session.seg_last h hw hF]
    · have hxd : x ++ d ≠ w := by
        intro h0
        rw [← h0] at hw
        exact hr (by simpa using hw)
      refine ⟨(s.at' (wordAt w 4) (x ++ d), []), ?_, by rw [List.length_append]; omega, by rw [if_neg hxd]⟩
      simp [session, Session.seg_step h hw hr hF]
  · exact ⟨by simp, by rw [if_neg hne.symm, Session.at_nil h]⟩

/-- What a fresh session forwards for a frame. -/
theorem finalOut_spec {s : Session} (h : s.Fresh) {w : List UInt8} (hF : Framed w) :
    (AcceptableReq w → ∃ f, s.finalOut w = [.fwd f] ∧ f.view = frameReq w) ∧ (¬ AcceptableReq w → s.finalOut w = []) := by
  have hne : w ≠ [] := by
    intro h0
    have := hF.1
    rw [h0] at this
    simp at this
  obtain ⟨s', os, os', h1, h2, h3, h4, h5⟩ := Session.C12_session_any_cut h hF [w] (by simp) (by simpa using hne)
  obtain ⟨os2, g1, g2⟩ := Session.seg_run h hF [w] [] (by simp) (by simpa using hne) (by simp)
  rw [Session.at_nil h] at g1
  have e : os = os2 := by
    rw [h1] at g1
    cases g1
    rfl
  subst e
  rw [g2] at h4 h5
  exact ⟨h4, h5⟩

/-- C77: a frame that the kernel took as a whole.  Whatever portions it arrives in and whenever the event loop runs, a session that
was waiting for a request forwards nothing but this request, at most once, and once everything has arrived and been reported it has
done so if the request is acceptable.  Missing: frames of which the kernel takes only a part (`C77_short_write_violated`), and
requests sent before the answer to the previous one (`C77_stranded_violated`). -/
theorem C77_request_partial {s : Session} (h : s.Fresh) {p : Pipe} (hp : p.Idle) {w : List UInt8} (hF : Framed w) (ops : List Op) :
    ∃ s' os p', go session (s, []) (p.send w (some w.length)).1 ops = .ok ((s', os), p') ∧
      (os = [] ∨ AcceptableReq w ∧ ∃ f, os = [.fwd f] ∧ f.view = frameReq w) ∧
      (p'.Quiet → p'.Idle ∧ (AcceptableReq w → os ≠ [])) := by
  have hAt := hp.send w w.length
  rw [List.take_length] at hAt
  obtain ⟨⟨s', os⟩, p', x, y, h1, ⟨h2, h3⟩, h4, h5⟩ := session_delivers h hF hAt (List.prefix_refl w) ops
  obtain ⟨k1, k2⟩ := finalOut_spec h hF
  refine ⟨s', os, p', h1, ?_, ?_⟩
  · split at h3
    · cases h3
      by_cases ha : AcceptableReq w
      · exact .inr ⟨ha, k1 ha⟩
      · exact .inl (k2 ha)
    · cases h3
      exact .inl rfl
  · intro hq
    have hx := h5.all h4 hq
    refine ⟨⟨hq.2, by rw [h5.taken, h5.sent, hx, List.length_append]⟩, fun ha => ?_⟩
    rw [if_pos hx] at h3
    cases h3
    obtain ⟨f, h6, _⟩ := k1 ha
    rw [h6]
    simp

/-- C77 is false when the kernel takes only a part of a frame: `Link::send` reports success, and the session at the other end never
forwards anything, however long it waits for the rest. -/
theorem C77_short_write_violated {s : Session} (h : s.Fresh) {p : Pipe} (hp : p.Idle) {w : List UInt8} (hF : Framed w) {n : Nat}
    (hn : n < w.length) :
    (p.send w (some n)).2 = 1 ∧
      ∀ ops, ∃ s' p', go session (s, []) (p.send w (some n)).1 ops = .ok ((s', []), p') := by
  refine ⟨rfl, fun ops => ?_⟩
  obtain ⟨⟨s', os⟩, p', x, y, h1, ⟨h2, h3⟩, h4, h5⟩ := session_delivers h hF (hp.send w n) (List.take_prefix n w) ops
  have hx : x ≠ w := by
    intro h0
    have := congrArg List.length h4
    rw [List.length_append, List.length_take, h0] at this
    omega
  rw [if_neg hx] at h3
  cases h3
  exact ⟨_, p', h1⟩

/-- C77 is false for bytes that arrive while a session waits for the application and more than 260 bytes are in its buffer: the
event comes and nothing is read.  When the application has answered, the session waits for requests with an empty buffer, the bytes
are still unread, and no number of turns of the event loop changes that. -/
theorem C77_stranded_violated {s : Session} (hst : s.st = .wait) (hl : s.link = true) (ht : s.timer = true) (ho : s.opened = true)
    (hlen : 260 < s.pdu.len) {p : Pipe} (he : p.edge = true) (os : List SOut) (r : Modbus.AppRsp)
    (hr : r.data.length ≤ 260) :
    ∃ p' s' o, go session (s, os) p [.event 0] = .ok ((s, os), p') ∧ p'.unread = p.unread ∧
      s.step (.rsp r true) = .ok (s', o) ∧ s'.st = .connected ∧ s'.pdu.len = 0 ∧
      ∀ n, go session (s', os ++ o) p' (List.replicate n (.event 0)) = .ok ((s', os ++ o), p') := by
  have hA : Modbus.maxAduLen = 260 := rfl
  have hw : session.wants (s, os) = none := by
    simp only [session]
    rw [if_neg (by rintro ⟨_, _, _, h⟩; omega)]
  have hon : session.on (s, os) .na = .ok (s, os) := by
    simp [session, Session.step, hl, Session.onData, hst, Session.receive, hA, hlen]
  have hgo : go session (s, os) p [.event 0] = .ok ((s, os), { p with edge := false }) := by
    simp only [go, he, hw, hon, Exec.ok_bind, Pipe.arrive]
    simp
  have hrest : ∀ z n, go session z { p with edge := false } (List.replicate n (.event 0)) = .ok (z, { p with edge := false }) := by
    intro z n
    induction n with
    | zero => rfl
    | succ n ih => simpa only [List.replicate_succ, go, if_true] using ih
  rcases Modbus.Standard.rsp_step hst hl ht ho hr with ⟨_, _, _, h⟩ | ⟨_, h⟩
  · exact ⟨_, _, _, hgo, rfl, h, rfl, rfl, hrest _⟩
  · exact ⟨_, _, _, hgo, rfl, h, rfl, rfl, hrest _⟩

/-! ## OPC UA connections -/

/-- What a connection has passed on when its buffer has read the part `x` of the chunk `f`. -/
def Gathered (f x : List UInt8) (z : Ua.Buf × List (List UInt8)) : Prop :=
  z.1.tail = 0 ∧ if x = f then z.1.head = 0 ∧ z.2 = [f] else memRead z.1.packet 0 z.1.head = x ∧ x.length ≤ f.length ∧ z.2 = []

theorem chunks_deliver {b : Ua.Buf} (ht : b.tail = 0) (hh : b.head = 0) {f : List UInt8} (hf : Ua.IsChunk f) (hl : f.length ≤ 1024)
    {base t : List UInt8} {p : Pipe} (hp : p.At base t []) (htf : t <+: f) (ops : List Op) :
    ∃ z p' x' y', go chunks (b, []) p ops = .ok (z, p') ∧ Gathered f x' z ∧ t = x' ++ y' ∧ p'.At base t x' := by
  obtain ⟨tl, htl⟩ := htf
  have len : ∀ x y, t = x ++ y → x.length + y.length ≤ f.length := by
    intro x y he
    rw [← htl, he]
    simp
  have hM : Ua.maxPacketLen = 4096 := rfl
  have hne : f ≠ [] := by
    intro h0
    have := hf.1
    rw [h0] at this
    simp at this
  have wants : ∀ z : Ua.Buf × List (List UInt8), z.1.tail = 0 → z.1.head ≤ 1024 → chunks.wants z = some (4096 - z.1.head) := by
    intro z h1 h2
    simp only [chunks, Ua.Buf.size, Ua.Buf.capacity, hM]
    rw [if_neg (by omega)]
  have head : ∀ x (z : Ua.Buf × List (List UInt8)), Gathered f x z → z.1.head ≤ 1024 := by
    intro x z hz
    have h2 := hz.2
    split at h2
    · omega
    · have := congrArg List.length h2.1
      rw [MsgStorage.length_memRead] at this
      omega
  refine deliver (I := Gathered f) ?_ ?_ ?_ ?_ ops hp (by simp : t = [] ++ t) ?_
  · intro x y z hI he hy
    have hxy := len x y he
    have := head x z hI
    exact ⟨_, wants z hI.1 this, by omega⟩
  · intro z hI
    have := head t z hI
    rw [wants z hI.1 this]
    simp
    omega
  · intro x z hI
    have := head x z hI
    refine ⟨z, ?_, hI⟩
    have h1 : ¬ 1024 < z.1.size := by simp only [Ua.Buf.size]; omega
    simp [chunks, Ua.receive, h1]
  · intro x d y z hI he hd
    have hdl := List.length_pos_iff.2 hd
    have hxy := len (x ++ d) y he
    rw [List.length_append] at hxy
    have hx : x ≠ f := by
      intro h0
      rw [h0] at hxy
      omega
    have hz := head x z hI
    obtain ⟨k1, k2⟩ := hI
    rw [if_neg hx] at k2
    obtain ⟨k2, k3, k4⟩ := k2
    have hw : f = x ++ d ++ (y ++ tl) := by rw [← htl, he, List.append_assoc]
    have hm := Ua.memRead_append z.1 x d k2
    have hev := Ua.evaluate_prefix (z.1.append d) (x ++ d) (y ++ tl) k1 hm (by rw [← hw]; exact hf)
    have hrec := Ua.receive_ok hz (by omega) hev
    by_cases hr : y ++ tl = []
    · rw [if_pos hr] at hrec
      rw [hr, List.append_nil] at hw
      have hb : (z.1.append d).bytes = f := by
        have : (z.1.append d).tail = 0 := k1
        simp only [Ua.Buf.bytes, Ua.Buf.size, this]
        rw [hm, hw]
      refine ⟨((z.1.append d).reset, [f]), ?_, rfl, ?_⟩
      · simp [chunks, hrec, k4, hb]
      · rw [if_pos hw.symm]
        exact ⟨rfl, rfl⟩
    · rw [if_neg hr] at hrec
      have hxd : x ++ d ≠ f := by
        intro h0
        rw [← h0] at hw
        exact hr (by simpa using hw)
      refine ⟨(z.1.append d, []), ?_, k1, ?_⟩
      · simp [chunks, hrec, k4]
      · rw [if_neg hxd]
        exact ⟨hm, by rw [List.length_append]; omega, rfl⟩
  · refine ⟨ht, ?_⟩
    rw [if_neg hne.symm, hh]
    exact ⟨rfl, by simp, rfl⟩

/-- C77, OPC UA: a chunk of at most 1024 bytes that the kernel took as a whole is passed on exactly once, whatever portions it
arrives in and whenever the event loop runs.  Missing: longer chunks (`C30_framing_violated`), chunks of which the kernel takes only
a part, and chunks that follow before this one was read (`C30_coalesced_violated`). -/
theorem C77_chunk_partial {b : Ua.Buf} (ht : b.tail = 0) (hh : b.head = 0) {p : Pipe} (hp : p.Idle) {f : List UInt8}
    (hf : Ua.IsChunk f) (hl : f.length ≤ 1024) (ops : List Op) :
    ∃ b' cs p', go chunks (b, []) (p.send f (some f.length)).1 ops = .ok ((b', cs), p') ∧ (cs = [] ∨ cs = [f]) ∧
      (p'.Quiet → p'.Idle ∧ cs = [f] ∧ b'.tail = 0 ∧ b'.head = 0) := by
  have hAt := hp.send f f.length
  rw [List.take_length] at hAt
  obtain ⟨⟨b', cs⟩, p', x, y, h1, ⟨h2, h3⟩, h4, h5⟩ := chunks_deliver ht hh hf hl hAt (List.prefix_refl f) ops
  refine ⟨b', cs, p', h1, ?_, ?_⟩
  · split at h3
    · exact .inr h3.2
    · exact .inl h3.2.2
  · intro hq
    have hx := h5.all h4 hq
    rw [if_pos hx] at h3
    exact ⟨⟨hq.2, by rw [h5.taken, h5.sent, hx, List.length_append]⟩, h3.2, h2, h3.1⟩

/-- C77 is false for chunks of which the kernel takes only a part: reported as sent, never passed on. -/
theorem C77_short_chunk_violated {b : Ua.Buf} (ht : b.tail = 0) (hh : b.head = 0) {p : Pipe} (hp : p.Idle) {f : List UInt8}
    (hf : Ua.IsChunk f) (hl : f.length ≤ 1024) {n : Nat} (hn : n < f.length) :
    (p.send f (some n)).2 = 1 ∧ ∀ ops, ∃ b' p', go chunks (b, []) (p.send f (some n)).1 ops = .ok ((b', []), p') := by
  refine ⟨rfl, fun ops => ?_⟩
  obtain ⟨⟨b', cs⟩, p', x, y, h1, ⟨h2, h3⟩, h4, h5⟩ := chunks_deliver ht hh hf hl (hp.send f n) (List.take_prefix n f) ops
  have hx : x ≠ f := by
    intro h0
    have := congrArg List.length h4
    rw [List.length_append, List.length_take, h0] at this
    omega
  rw [if_neg hx] at h3
  obtain ⟨_, _, h6⟩ := h3
  subst h6
  exact ⟨b', p', h1⟩

/-! ## Samples -/

/-- A reader that also keeps what it has read. -/
def recording {σ : Type} (R : Reader σ) : Reader (σ × List UInt8) where
  wants x := R.wants x.1
  on x rx := do
    let s ← R.on x.1 rx
    pure (s, x.2 ++ match rx with
      | .ok d => d
      | _ => [])

/-- Whoever reads, and however little at a time: it gets the bytes that were sent, in order, without gaps and none twice; what it has
not got is still there. -/
theorem C77_in_order {σ : Type} (R : Reader σ) {s s' : σ} {p p' : Pipe} {x d : List UInt8} (ops : List Op) (h1 : p.taken ≤ p.arrived)
    (h2 : p.arrived ≤ p.sent.length) (h : go (recording R) (s, x) p ops = .ok ((s', d), p')) :
    p'.sent = p.sent ∧ p.arrived ≤ p'.arrived ∧ p'.taken ≤ p'.arrived ∧ p'.arrived ≤ p'.sent.length ∧
      d ++ p'.unread = x ++ (p.sent.take p'.arrived).drop p.taken := by
  induction ops generalizing s p x with
  | nil =>
    cases h
    exact ⟨rfl, Nat.le_refl _, h1, h2, rfl⟩
  | cons op ops ih =>
    have ha : ∀ (p : Pipe) (n : Nat), p.taken ≤ p.arrived → p.arrived ≤ p.sent.length →
        (p.arrive n).sent = p.sent ∧ p.arrived ≤ (p.arrive n).arrived ∧ (p.arrive n).arrived ≤ p.sent.length ∧
          (p.arrive n).taken = p.taken := by
      intro p n _ h2
      unfold Pipe.arrive
      split
      · rename_i hn; exact ⟨rfl, Nat.le_add_right _ _, hn.2, rfl⟩
      · exact ⟨rfl, Nat.le_refl _, h2, rfl⟩
    cases op with
    | arrive n =>
      simp only [go] at h
      obtain ⟨a1, a2, a3, a4⟩ := ha p n h1 h2
      obtain ⟨b1, b2, b3, b4, b5⟩ := ih (by omega) (by rw [a1]; exact a3) h
      exact ⟨by rw [b1, a1], by omega, b3, b4, by rw [b5, a1, a4]⟩
    | event n =>
      simp only [go] at h
      split at h
      · exact ih h1 h2 h
      obtain ⟨a1, a2, a3, a4⟩ := ha { p with edge := false } n h1 h2
      generalize Pipe.arrive { p with edge := false } n = q at h a1 a2 a3 a4
      dsimp only at a1 a2 a3 a4
      split at h
      · obtain ⟨⟨t, y⟩, c1, c2⟩ := Exec.bind_eq_ok.1 h
        obtain ⟨t', _, c4⟩ := Exec.bind_eq_ok.1 c1
        cases c4
        obtain ⟨b1, b2, b3, b4, b5⟩ := ih (by omega) (by rw [a1]; exact a3) c2
        exact ⟨by rw [b1, a1], by omega, b3, b4, by rw [b5, a1, a4, List.append_nil]⟩
      · rename_i cap _
        obtain ⟨⟨t, y⟩, c1, c2⟩ := Exec.bind_eq_ok.1 h
        obtain ⟨t', _, c4⟩ := Exec.bind_eq_ok.1 c1
        cases c4
        by_cases hz : 0 < cap ∧ q.unread = []
        · have hr : q.receive cap = (.na, q) := by rw [Pipe.receive, if_pos hz]
          rw [hr] at c2
          obtain ⟨b1, b2, b3, b4, b5⟩ := ih (p := q) (by omega) (by rw [a1]; exact a3) c2
          exact ⟨by rw [b1, a1], by omega, b3, b4, by rw [b5, a1, a4, List.append_nil]⟩
        · have hr : q.receive cap = (.ok (q.unread.take cap), { q with taken := q.taken + (q.unread.take cap).length }) := by
            rw [Pipe.receive, if_neg hz]
          rw [hr] at c2
          have hl : (q.unread.take cap).length ≤ q.arrived - q.taken := by
            simp only [Pipe.unread, List.length_take, List.length_drop]; omega
          obtain ⟨b1, b2, b3, b4, b5⟩ := ih (p := { q with taken := q.taken + (q.unread.take cap).length }) (by dsimp only; omega)
            (by dsimp only; rw [a1]; exact a3) c2
          dsimp only at b1 b2 b3 b4 b5
          refine ⟨by rw [b1, a1], by omega, b3, b4, ?_⟩
          rw [b5, List.append_assoc]
          congr 1
          have hu : q.unread.take cap = ((p.sent.take p'.arrived).drop p.taken).take (q.unread.take cap).length := by
            rw [Pipe.unread, a1, a4]
            rw [List.drop_take, List.drop_take, List.take_take, List.take_take]
            simp only [List.length_take, List.length_drop]
            rw [List.take_eq_take_iff]
            simp only [List.length_drop]
            omega
          rw [a1, a4]
          conv => lhs; arg 1; rw [hu]
          rw [← List.drop_drop, List.take_append_drop]

/-- A pipe before the first byte. -/
def empty : Pipe := ⟨[], 0, 0, false⟩

example : empty.Idle := ⟨rfl, rfl⟩

/-- `C77_in_order` at work: a reader of three bytes at a time gets five of the seven bytes that were sent. -/
example : go (recording ⟨fun _ => some 3, fun s _ => .ok s⟩) ((), []) (empty.send [1, 2, 3, 4, 5, 6, 7] (some 7)).1
    [.arrive 2, .event 0, .event 4, .arrive 5, .event 0] = .ok (((), [1, 2, 3, 4, 5]), ⟨[1, 2, 3, 4, 5, 6, 7], 7, 5, false⟩) := rfl

/-- Writes, each followed by these happenings: the kernel takes the given number of bytes of each. -/
def talk (z : Session × List SOut) (p : Pipe) : List (List UInt8 × Nat × List Op) → Exec ((Session × List SOut) × Pipe)
  | [] => .ok (z, p)
  | (w, n, ops) :: xs => do
    let (z, p) ← go session z (p.send w (some n)).1 ops
    talk z p xs

/-- What a new session forwards. -/
def heard (xs : List (List UInt8 × Nat × List Op)) : Option (List SOut × Pipe) :=
  match (Session.create (fun _ => 0) Modbus.sampleReq).step .start with
  | .ok (s, _) => match talk (s, []) empty xs with
    | .ok (z, p) => some (z.2, p)
    | _ => none
  | _ => none

/-- A request in three portions, two of which are reported by one event; a further event finds nothing. -/
example : heard [(Session.sampleRead 5, 12, [.arrive 3, .arrive 4, .event 5, .event 0])] =
    some ([.fwd (Session.sampleFwd 5)], ⟨Session.sampleRead 5, 12, 12, false⟩) := by decide +kernel

/-- A request of which the kernel took eleven bytes. -/
example : heard [(Session.sampleRead 5, 11, [.arrive 3, .event 8, .event 0])] =
    some ([], ⟨(Session.sampleRead 5).take 11, 11, 11, false⟩) := by decide +kernel

/-- The frames a client sends that is asked to write ten registers and to read two, and gets no answer to the first within the
time it waits. -/
def twoFrames : Option (List (List UInt8)) :=
  match (Client.create fun _ => 0).run [.start true, .connected,
      .req ⟨1, 1, 16, 9, 7, 10, 20, some [1, 0, 2, 0, 3, 0, 4, 0, 5, 0, 6, 0, 7, 0, 8, 0, 9, 0, 10, 0]⟩,
      .req ⟨1, 2, 3, 9, 7, 2, 0, none⟩, .timer true true, .timer true true, .timer true true] with
  | .ok (_, os) => some ((os.flatMap Prod.snd).filterMap fun
      | .frame w => some w
      | .rsp _ => none)
  | _ => none

/-- C77 is false in a way that changes the meaning: a client asks for ten registers to be written and then for two to be read; the
kernel takes 21 of the 33 bytes of the first request.  The client is told that both were sent.  The session forwards one request, to
write ten registers, of which the last six are the bytes of the second request. -/
theorem C77_mixed_violated : ∃ w1 w2 : List UInt8, twoFrames = some [w1, w2] ∧ w1.length = 33 ∧ (empty.send w1 (some 21)).2 = 1 ∧
    (heard [(w1, 21, [.arrive 21, .event 0]), (w2, w2.length, [.arrive 12, .event 0])]).map Prod.fst =
      some [.fwd ⟨1, 16, 9, 7, 10, 20, [1, 0, 2, 0, 3, 0, 4, 0, 2, 0, 0, 0, 6, 0, 3, 9, 7, 0, 2, 0]⟩] := by
  refine ⟨[0, 1, 0, 0, 0, 27, 9, 16, 0, 7, 0, 10, 20, 0, 1, 0, 2, 0, 3, 0, 4, 0, 5, 0, 6, 0, 7, 0, 8, 0, 9, 0, 10],
    Session.sampleRead 2, ?_⟩
  decide +kernel

/-- `C77_stranded_violated` can happen: a peer sends 23 requests without waiting for the first answer.  The last one stays unread
although the session has long been ready for it. -/
example : (heard [(Session.sampleRead 5, 12, [.arrive 12, .event 0]),
      ((List.replicate 21 (Session.sampleRead 6)).flatten, 252, [.arrive 252, .event 0]),
      (Session.sampleRead 7, 12, [.arrive 12, .event 0, .event 0])]).map (fun x => (x.1, x.2.unread, x.2.edge)) =
    some ([.fwd (Session.sampleFwd 5)], Session.sampleRead 7, false) := by decide +kernel

end Uscada.Stream
