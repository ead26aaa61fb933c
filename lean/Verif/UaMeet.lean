import Verif.UaPeerLimits
import Verif.UaClientAnswers

/-!
# C109: the two secure channels of the library open a channel with each other

`OpcUaClientSecureChannel` on `ClientConnection` and `OpcUaServerSecureChannel` on `ServerConnection` (common/ua/protocols), each with the bytes that the
other one writes.
-/

namespace Uscada.Ua

open Transport (HoldsChunk acknowledge announced hello)

/-! ## Pieces -/

section
variable {b : Buf} {pre x post : List UInt8}

theorem cut_noerror (ht : b.tail = 0) (hh : b.head = 0) (hc : IsChunk ((pre ++ x) ++ post)) (hp : post ≠ []) (h1 : pre.length ≤ 1024)
    (h2 : (pre ++ x).length ≤ 4096) : receive true (.ok x) (b.append pre) = .ok (.noerror, b.append (pre ++ x)) := by
  have h0 : memRead b.packet 0 b.head = [] := by rw [hh]; rfl
  have hev := evaluate_prefix (b.append (pre ++ x)) (pre ++ x) post ht (memRead_append b [] (pre ++ x) h0) hc
  rw [if_neg hp, ← Peer.append_append] at hev
  rw [List.length_append] at h2
  rw [← Peer.append_append]
  exact receive_ok (by show b.head + _ ≤ _; omega) (by show b.head + _ + _ ≤ _; omega) hev

theorem cut_done (ht : b.tail = 0) (hh : b.head = 0) (hc : IsChunk (pre ++ x)) (h1 : pre.length ≤ 1024) (h2 : (pre ++ x).length ≤ 4096) :
    receive true (.ok x) (b.append pre) = .ok (.done, b.append (pre ++ x)) := by
  have h0 : memRead b.packet 0 b.head = [] := by rw [hh]; rfl
  have hev := evaluate_prefix (b.append (pre ++ x)) (pre ++ x) [] ht (memRead_append b [] (pre ++ x) h0) (by rw [List.append_nil]; exact hc)
  rw [if_pos rfl, ← Peer.append_append] at hev
  rw [List.length_append] at h2
  rw [← Peer.append_append]
  exact receive_ok (by show b.head + _ ≤ _; omega) (by show b.head + _ + _ ≤ _; omega) hev

end

/-- Pieces one after the other. -/
def feedAll {σ E : Type} (next : σ → E → List UInt8 → Exec σ) : σ → List (E × List UInt8) → Exec σ
  | s, [] => .ok s
  | s, x :: xs => next s x.1 x.2 >>= fun s' => feedAll next s' xs

/-- How the network cuts what it carries: into pieces that are not empty, each in circumstances of its own. -/
structure Net {E : Type} (fine : E → Prop) (cut : List UInt8 → List (E × List UInt8)) : Prop where
  flat : ∀ d, ((cut d).map (·.2)).flatten = d
  some : ∀ d, ∀ x ∈ cut d, x.2 ≠ []
  fine : ∀ d, ∀ x ∈ cut d, fine x.1

/-- Of a chunk of at most 1024 bytes, all pieces but the last are stored; what holds for all states with more pieces stored still holds then. -/
theorem feed_keeps {σ E : Type} {next : σ → E → List UInt8 → Exec σ} {fine : E → Prop} {cut : List UInt8 → List (E × List UInt8)} (hn : Net fine cut)
    {P : σ → Prop} {mk : Buf → σ} {b : Buf} (ht : b.tail = 0) (hh : b.head = 0) (h0 : P (mk b))
    (hw : ∀ e x c c', fine e → P (mk c) → receive true (.ok x) c = .ok (.noerror, c') → next (mk c) e x = .ok (mk c') ∧ P (mk c')) {d : List UInt8} (hd : IsChunk d) (hl : d.length ≤ 1024) :
    ∃ e c x, fine e ∧ P (mk c) ∧ receive true (.ok x) c = .ok (.done, b.append d) ∧ feedAll next (mk b) (cut d) = next (mk c) e x := by
  have key : ∀ (ps : List (E × List UInt8)) (pre : List UInt8), P (mk (b.append pre)) → ps ≠ [] → (∀ x ∈ ps, x.2 ≠ [] ∧ fine x.1) → pre ++ (ps.map (·.2)).flatten = d →
      ∃ e c x, fine e ∧ P (mk c) ∧ receive true (.ok x) c = .ok (.done, b.append d) ∧ feedAll next (mk (b.append pre)) ps = next (mk c) e x := by
    intro ps
    induction ps with
    | nil => exact fun _ _ h => absurd rfl h
    | cons y ps ih =>
      intro pre hP _ hx hf
      have hlen : pre.length ≤ d.length := by rw [← hf, List.length_append]; omega
      match ps, ih with
      | [], _ =>
        simp only [List.map_cons, List.map_nil, List.flatten_cons, List.flatten_nil, List.append_nil] at hf
        subst hf
        refine ⟨y.1, b.append pre, y.2, (hx y (by simp)).2, hP, cut_done ht hh hd (by omega) (by omega), ?_⟩
        show (next _ _ _ >>= fun s' => Exec.ok s') = _
        cases next (mk (b.append pre)) y.1 y.2 <;> rfl
      | z :: zs, ih =>
        have hne : ((z :: zs).map (·.2)).flatten ≠ [] := by
          simp only [List.map_cons, List.flatten_cons]
          exact fun h => (hx z (by simp)).1 (List.append_eq_nil_iff.1 h).1
        have hf' : (pre ++ y.2) ++ ((z :: zs).map (·.2)).flatten = d := by
          rw [← hf, List.append_assoc, List.map_cons (l := z :: zs), List.flatten_cons]
        have hl2 : (pre ++ y.2).length ≤ d.length := by rw [← hf', List.length_append (as := pre ++ y.2)]; omega
        obtain ⟨h1, hP'⟩ := hw y.1 y.2 _ _ (hx y (by simp)).2 hP (cut_noerror ht hh (by rw [hf']; exact hd) hne (by omega) (by omega))
        obtain ⟨e, c, x, g0, g1, g2, g3⟩ := ih (pre ++ y.2) hP' (by simp) (fun w hw => hx w (List.mem_cons_of_mem _ hw)) hf'
        refine ⟨e, c, x, g0, g1, g2, ?_⟩
        show (next _ _ _ >>= fun s' => feedAll next s' (z :: zs)) = _
        rw [h1]
        exact g3
  have hb : b.append [] = b := by
    have : memWrite b.packet b.head [] = b.packet := by
      funext i
      simp only [memWrite, List.length_nil]
      rw [if_neg (by omega)]
    simp only [Buf.append, this, List.length_nil, Nat.add_zero]
  have hne : cut d ≠ [] := by
    intro h
    have h1 := hn.flat d
    rw [h] at h1
    have h2 := hd.1
    rw [← h1] at h2
    simp at h2
  have := key (cut d) [] (by rw [hb]; exact h0) hne (fun x hx => ⟨hn.some d x hx, hn.fine d x hx⟩) (hn.flat d)
  rw [hb] at this
  exact this

/-- The same without such a property. -/
theorem feed_net {σ E : Type} {next : σ → E → List UInt8 → Exec σ} {fine : E → Prop} {cut : List UInt8 → List (E × List UInt8)} (hn : Net fine cut)
    {mk : Buf → σ} {b : Buf} (ht : b.tail = 0) (hh : b.head = 0)
    (hw : ∀ e x c c', receive true (.ok x) c = .ok (.noerror, c') → next (mk c) e x = .ok (mk c')) {d : List UInt8} (hd : IsChunk d) (hl : d.length ≤ 1024) :
    ∃ e c x, fine e ∧ receive true (.ok x) c = .ok (.done, b.append d) ∧ feedAll next (mk b) (cut d) = next (mk c) e x := by
  obtain ⟨e, c, x, h1, -, h2, h3⟩ := feed_keeps (P := fun _ => True) hn ht hh trivial (fun e x c c' _ _ h => ⟨hw e x c c' h, trivial⟩) hd hl
  exact ⟨e, c, x, h1, h2, h3⟩

section
open CM

variable {r : Role} {e : Env} {c : Conn} {x : List UInt8} {b b' : Buf}

theorem shake_noerror (hl : c.link = true) (ho : c.opened = true) (he : e.rx = .ok x) (h : receive true (.ok x) c.rx = .ok (.noerror, b)) :
    receiveHandshake r e c = (.ok .noerror, { c with rx := b }) := by
  unfold receiveHandshake
  simp only [bind_run, receiveRx, hl, ho, if_true, he, h, andThen, pure_run]

theorem shake_done (hl : c.link = true) (ho : c.opened = true) (he : e.rx = .ok x) (h : receive true (.ok x) c.rx = .ok (.done, b)) (hh : isHandshake r b = true)
    (hd : handshakeDec r b = .ok ((), b')) : receiveHandshake r e c = (.ok .done, { c with rx := b' }) := by
  unfold receiveHandshake
  simp only [bind_run, receiveRx, hl, ho, if_true, he, h, andThen, pure_run, CM.get, hh, decodeHandshake, hd]

theorem accepts_link (hs : c.st = .init) (ht : e.timerFree = true) (hst : e.starts = true) : userAccept e c =
    (.ok (), { c with st := .handshake, link := true, opened := true, timer := true, armed := true, rx := c.rx.reset, log := c.log ++ [.attempt] }) := by
  unfold userAccept toHandshake
  simp only [bind_run, CM.get, andThen, hs, setLink, allocTimer, ht, if_true, CM.modify, logAct]
  rw [transit_run (by simp) (by simp)]
  simp only [bind_run, startTimer, hst, if_true, andThen, receivePreaction, CM.modify]

theorem begins_link (hs : c.st = .init) (ha : Avail e) : userConnect e c =
    (.ok (), { c with st := .connecting, link := true, opened := true, timer := true, armed := true, log := c.log ++ [.attempt] }) := by
  unfold userConnect toConnecting
  simp only [bind_run, CM.get, andThen, hs, allocLink, allocTimer, ha.link, ha.timer, if_true, CM.modify, logAct]
  rw [transit_run (by simp) (by simp)]
  simp only [bind_run, connectLink, startTimer, ha.connects, ha.starts, if_true, andThen]

theorem toHandshake_run (hs : c.st = .connecting) (ht : c.timer = true) (hst : e.starts = true) :
    toHandshake e c = (.ok (), { c with st := .handshake, armed := true, rx := c.rx.reset }) := by
  unfold toHandshake
  rw [transit_run (by rw [hs]; simp) (fun _ => ht)]
  simp only [bind_run, startTimer, ht, hst, if_true, andThen, receivePreaction, CM.modify, hs]

theorem send_run (hl : c.link = true) (ho : c.opened = true) (hw : e.writes = true) (d : List UInt8) : send e d c = (.ok .done, { c with log := c.log ++ [.sent d] }) := by
  simp only [send, hl, ho, hw, Bool.and_self, if_true]

theorem timer_starts (ht : c.timer = true) (hst : e.starts = true) : startTimer e c = (.ok (), { c with armed := true }) := by
  simp only [startTimer, ht, hst, if_true]

end

/-! ## The server -/

namespace Peer

open SM

variable {s : Peer} {e : PEnv}

/-- Circumstances in which nothing is missing: timers, links, the socket takes what is written. -/
structure Fine (e : PEnv) : Prop where
  good : Good e
  writes : e.env.writes = true

/-- What the network brings to a server. -/
def receives (xs : List (PEnv × List UInt8)) : List (PEnv × Ev) := xs.map fun x => (brings x.1 x.2, .linkData)

theorem run_receives (xs : List (PEnv × List UInt8)) (s : Peer) : s.run (receives xs) = feedAll (fun s e x => s.next (brings e x) .linkData) s xs := by
  induction xs generalizing s with
  | nil => rfl
  | cons x xs ih =>
    show (s.next (brings x.1 x.2) .linkData >>= fun q => q.run (receives xs)) = (s.next (brings x.1 x.2) .linkData >>= fun q => feedAll _ q xs)
    cases s.next (brings x.1 x.2) .linkData with
    | ok q => exact ih q
    | throws => rfl
    | abort => rfl
    | ub => rfl

/-- An idle server channel that is given a link waits for a greeting. -/
theorem opens_link (hs : s.st = .init) (hc : s.conn.st = .init) (he : Good e) :
    ∃ c, s.next e (.user .open) = .ok { s with conn := c, st := .connecting, id := e.id, log := s.log ++ [.opening e.id] } ∧ Waits c ∧
      c.log = s.conn.log ++ [.attempt] := by
  refine ⟨{ s.conn with st := .handshake, link := true, opened := true, timer := true, armed := true, rx := s.conn.rx.reset, log := s.conn.log ++ [.attempt] }, ?_,
    ⟨rfl, rfl, rfl, rfl, rfl, rfl⟩, rfl⟩
  have h1 := accepts_link (e := e.env) hc he.avail.timer he.avail.starts
  show settle ((SM.get >>= _) s) = _
  rw [bind_ok (show SM.get s = (.ok s, s) from rfl)]
  simp only [hs]
  rw [bind_ok (show SM.modify _ s = (.ok (), { s with id := e.id }) from rfl), bind_ok (show act _ _ = (.ok (), { s with id := e.id, log := s.log ++ [.opening e.id] }) from rfl)]
  rw [bind_ok (show onConn (userAccept e.env) { s with id := e.id, log := s.log ++ [.opening e.id] } = (.ok (), { s with id := e.id, log := s.log ++ [.opening e.id], conn := _ }) by
    unfold onConn; simp only [h1]; exact rfl)]
  rfl

theorem shakes_on (hw : Waits s.conn) {x : List UInt8} {b b' : Buf} (h : receive true (.ok x) b = .ok (.noerror, b')) :
    ({ s with conn := { s.conn with rx := b } } : Peer).next (brings e x) .linkData = .ok { s with conn := { s.conn with rx := b' } } := by
  obtain ⟨⟨cst, rx, link, opened, timer, armed, clog⟩, st, id, tx, rxSeq, reqId, lifetime, token, log⟩ := s
  obtain ⟨h1, h2, h3, h4, h5, h6⟩ := hw
  simp only at h1 h2 h3 h4 h5 h6
  subst h1 h2 h3 h4
  have hr := shake_noerror (r := .server) (e := (brings e x).env) (c := ⟨.handshake, b, true, true, true, armed, clog⟩) rfl rfl rfl h
  show settle ((onConn (receiveHandshake .server (brings e x).env) >>= _) (Peer.mk ⟨.handshake, b, true, true, true, armed, clog⟩ st id tx rxSeq reqId lifetime token log)) = _
  rw [bind_ok (show onConn (receiveHandshake .server (brings e x).env) _ = (.ok .noerror, _) by unfold onConn; rw [hr])]
  rfl

theorem shakes_done (hw : Waits s.conn) (hs : s.st = .connecting) (he : Fine e) {x : List UInt8} {c b b' : Buf} (h : receive true (.ok x) c = .ok (.done, b))
    (hh : isHandshake .server b = true) (hd : handshakeDec .server b = .ok ((), b')) :
    ({ s with conn := { s.conn with rx := c } } : Peer).next (brings e x) .linkData = .ok { s with
      st := .waiting, conn := { s.conn with st := .connected, armed := true, rx := b'.reset, log := s.conn.log ++ [.sent ackFrame] ++ [.note .connected] } } := by
  obtain ⟨⟨cst, rx, link, opened, timer, armed, clog⟩, st, id, tx, rxSeq, reqId, lifetime, token, log⟩ := s
  obtain ⟨h1, h2, h3, h4, h5, h6⟩ := hw
  simp only at h1 h2 h3 h4 h5 h6 hs
  subst h1 h2 h3 h4 hs
  have hr := shake_done (r := .server) (e := (brings e x).env) (c := ⟨.handshake, c, true, true, true, armed, clog⟩) rfl rfl rfl h hh hd
  have hsn := send_run (e := (brings e x).env) (c := ⟨.handshake, b', true, true, true, armed, clog⟩) rfl rfl he.writes ackFrame
  show settle ((onConn (receiveHandshake .server (brings e x).env) >>= _) (Peer.mk ⟨.handshake, c, true, true, true, armed, clog⟩ .connecting id tx rxSeq reqId lifetime token log)) = _
  rw [bind_ok (show onConn (receiveHandshake .server (brings e x).env) _ = (.ok .done, _) by unfold onConn; rw [hr])]
  show settle ((onConn (sendAcknowledge (brings e x).env) >>= _) (Peer.mk ⟨.handshake, b', true, true, true, armed, clog⟩ .connecting id tx rxSeq reqId lifetime token log)) = _
  rw [bind_ok (show onConn (sendAcknowledge (brings e x).env) _ = (.ok .done, _) by unfold onConn; rw [sendAcknowledge_eq, hsn])]
  have ht := timer_starts (e := (brings e x).env) (c := ⟨.connected, b'.reset, true, true, true, false, clog ++ [.sent ackFrame] ++ [.note .connected]⟩) rfl he.good.avail.starts
  show settle (onConn (startTimer (brings e x).env) (Peer.mk ⟨.connected, b'.reset, true, true, true, false, clog ++ [.sent ackFrame] ++ [.note .connected]⟩ .waiting id tx rxSeq reqId lifetime token log)) = _
  unfold onConn
  rw [ht]
  rfl

/-- C109: a server channel answers every greeting of the standard of at most 1024 bytes, however it is cut, and waits for an open request. -/
theorem greeted_by (hw : Waits s.conn) (hs : s.st = .connecting) {cut : List UInt8 → List (PEnv × List UInt8)} (hn : Net Fine cut) {v : HelloMessage}
    {body : List UInt8} (hv : std false v body) (hlen : body.length ≤ 1016) :
    ∃ c, s.run (receives (cut (hello body))) = .ok { s with conn := c, st := .waiting } ∧ Ready c ∧ c.timer = true ∧
      c.log = s.conn.log ++ [.sent (acknowledge announced), .note .connected] := by
  have hll : (hello body).length = body.length + 8 := Transport.lettered_length rfl body
  obtain ⟨e, c0, x, he, hrecv, hrun⟩ := feed_net (σ := Peer) (next := fun s e x => s.next (brings e x) .linkData) hn
    (mk := fun b => { s with conn := { s.conn with rx := b } }) hw.tail hw.head (fun e x c c' h => shakes_on hw h) (d := hello body) (Transport.lettered_chunk rfl (by omega)) (by omega)
  have hb0 : ∃ b, b = s.conn.rx.append (hello body) := ⟨_, rfl⟩
  obtain ⟨b, hb⟩ := hb0
  rw [← hb] at hrecv
  have h0 : memRead s.conn.rx.packet 0 s.conn.rx.head = [] := by rw [hw.head]; rfl
  have hm : memRead b.packet 0 b.head = hello body := by rw [hb]; exact memRead_append s.conn.rx [] (hello body) h0
  have hbt : b.tail = 0 := by rw [hb]; exact hw.tail
  have hbb : b.bytes = hello body := by
    unfold Buf.bytes
    rw [hbt]
    exact hm
  obtain ⟨b', hd⟩ := Transport.lettered_decodes (b := b) (a := [0x48, 0x45, 0x4C, 0x46]) rfl hv (by omega) ⟨hbt, hm⟩
  have hh : isHandshake .server b = true := letters_isHandshake (by rw [hbb, hll]; omega) (by rw [hbb]; rfl)
  refine ⟨{ s.conn with st := .connected, armed := true, rx := b'.reset, log := s.conn.log ++ [.sent ackFrame] ++ [.note .connected] }, ?_,
    ⟨rfl, hw.link, hw.opened, rfl, rfl⟩, hw.timer, ?_⟩
  · rw [run_receives, show s = { s with conn := { s.conn with rx := s.conn.rx } } from rfl, hrun]
    exact shakes_done hw hs he hrecv hh hd
  · show s.conn.log ++ _ ++ _ = _
    rw [List.append_assoc, ← Transport.ackFrame_eq]
    rfl

/-- Of a chunk of at most 1024 bytes only the last piece matters. -/
theorem whole_net (hr : Ready s.conn) {cut : List UInt8 → List (PEnv × List UInt8)} (hn : Net Fine cut) {d : List UInt8} (hd : IsChunk d) (hl : d.length ≤ 1024) :
    ∃ e, Fine e ∧ s.run (receives (cut d)) = s.next (brings e d) .linkData := by
  obtain ⟨e, c0, x, he, hrecv, hrun⟩ := feed_net (σ := Peer) (next := fun s e x => s.next (brings e x) .linkData) hn
    (mk := fun b => { s with conn := { s.conn with rx := b } }) hr.tail hr.head
    (fun e x c c' h => next_waits (p := { s with conn := { s.conn with rx := c } }) e x hr.st hr.link hr.opened h) hd hl
  refine ⟨e, he, ?_⟩
  have h1 := next_completes (p := { s with conn := { s.conn with rx := c0 } }) e x hr.st hr.link hr.opened hrecv
  have h2 := next_completes (p := s) e d hr.st hr.link hr.opened (receive_ok (by rw [hr.head]; omega) (by rw [hr.head]; omega) (by
    have := evaluate_prefix (s.conn.rx.append d) d [] hr.tail (memRead_append s.conn.rx [] d (by rw [hr.head]; rfl)) (by rw [List.append_nil]; exact hd)
    rw [if_pos rfl] at this
    exact this))
  rw [run_receives, show s = { s with conn := { s.conn with rx := s.conn.rx } } from rfl, hrun, h1, h2, handleData_brings e x d]

end Peer

/-! ## The client -/

namespace Cli

open SM
open Peer (typeIs chunk opn)

attribute [local irreducible] frame openReqEnc chunk

variable {p : Cli} {e : KEnv}

/-- Circumstances in which nothing is missing. -/
structure Fine (e : KEnv) : Prop where
  good : Good e
  writes : e.env.writes = true

/-- The same circumstances, other bytes. -/
def brings (e : KEnv) (d : List UInt8) : KEnv := { e with env := { e.env with rx := .ok d } }

/-- What the network brings to a client. -/
def receives (xs : List (KEnv × List UInt8)) : List (KEnv × Ev) := xs.map fun x => (brings x.1 x.2, .linkData)

theorem run_receives (xs : List (KEnv × List UInt8)) (s : Cli) : s.run (receives xs) = feedAll (fun s e x => s.next (brings e x) .linkData) s xs := by
  induction xs generalizing s with
  | nil => rfl
  | cons x xs ih =>
    show (s.next (brings x.1 x.2) .linkData >>= fun q => q.run (receives xs)) = (s.next (brings x.1 x.2) .linkData >>= fun q => feedAll _ q xs)
    cases s.next (brings x.1 x.2) .linkData with
    | ok q => exact ih q
    | throws => rfl
    | abort => rfl
    | ub => rfl

/-- An idle client that is told to open says hello as soon as the link is up. -/
theorem opens_link {e f : KEnv} (hs : p.st = .init) (hc : p.conn.st = .init) (he : Good e) (hf : Fine f) :
    ∃ c, p.run [(e, .user .open), (f, .linkConnected)] = .ok { p with conn := c, st := .connecting, log := p.log ++ [.opening] } ∧ Waits c ∧
      c.log = p.conn.log ++ [.attempt, .sent helloFrame] := by
  obtain ⟨⟨cst, rx, link, opened, timer, armed, clog⟩, st, log⟩ := p
  simp only at hs hc
  subst hs hc
  refine ⟨⟨.handshake, rx.reset, true, true, true, true, clog ++ [.attempt] ++ [.sent helloFrame]⟩, ?_, ⟨rfl, rfl, rfl, rfl, rfl, rfl⟩, by simp⟩
  have h1 := begins_link (e := e.env) (c := ⟨.init, rx, link, opened, timer, armed, clog⟩) rfl he.avail
  have h2 : (Cli.mk ⟨.init, rx, link, opened, timer, armed, clog⟩ .init log).next e (.user .open) =
      .ok (Cli.mk ⟨.connecting, rx, true, true, true, true, clog ++ [.attempt]⟩ .connecting (log ++ [.opening])) := by
    show settle ((onConn (userConnect e.env) >>= _) (Cli.mk ⟨.init, rx, link, opened, timer, armed, clog⟩ .init (log ++ [.opening]))) = _
    rw [bind_ok (show onConn (userConnect e.env) _ = (.ok (), _) by unfold onConn; rw [h1])]
    rfl
  have h3 := send_run (e := f.env) (c := ⟨.connecting, rx, true, true, true, true, clog ++ [.attempt]⟩) rfl rfl hf.writes helloFrame
  have h4 := toHandshake_run (e := f.env) (c := ⟨.connecting, rx, true, true, true, true, clog ++ [.attempt] ++ [.sent helloFrame]⟩) rfl rfl hf.good.avail.starts
  have h5 : (Cli.mk ⟨.connecting, rx, true, true, true, true, clog ++ [.attempt]⟩ .connecting (log ++ [.opening])).next f .linkConnected =
      .ok (Cli.mk ⟨.handshake, rx.reset, true, true, true, true, clog ++ [.attempt] ++ [.sent helloFrame]⟩ .connecting (log ++ [.opening])) := by
    show settle ((onConn (sendOpening .client f.env) >>= _) (Cli.mk ⟨.connecting, rx, true, true, true, true, clog ++ [.attempt]⟩ .connecting (log ++ [.opening]))) = _
    rw [bind_ok (show onConn (sendOpening .client f.env) _ = (.ok .done, _) by unfold onConn; rw [sendOpening_client, h3])]
    show settle (onConn (toHandshake f.env) (Cli.mk ⟨.connecting, rx, true, true, true, true, clog ++ [.attempt] ++ [.sent helloFrame]⟩ .connecting (log ++ [.opening]))) = _
    unfold onConn
    rw [h4]
    rfl
  show (Cli.next _ _ _ >>= fun q => q.run _) = _
  rw [h2]
  show (Cli.next _ _ _ >>= fun q => q.run []) = _
  rw [h5]
  rfl

theorem shakes_on (hw : Waits p.conn) {x : List UInt8} {b b' : Buf} (h : receive true (.ok x) b = .ok (.noerror, b')) :
    ({ p with conn := { p.conn with rx := b } } : Cli).next (brings e x) .linkData = .ok { p with conn := { p.conn with rx := b' } } := by
  obtain ⟨⟨cst, rx, link, opened, timer, armed, clog⟩, st, log⟩ := p
  obtain ⟨h1, h2, h3, h4, h5, h6⟩ := hw
  simp only at h1 h2 h3 h4 h5 h6
  subst h1 h2 h3 h4
  have hr := shake_noerror (r := .client) (e := (brings e x).env) (c := ⟨.handshake, b, true, true, true, armed, clog⟩) rfl rfl rfl h
  show settle ((onConn (receiveHandshake .client (brings e x).env) >>= _) (Cli.mk ⟨.handshake, b, true, true, true, armed, clog⟩ st log)) = _
  rw [bind_ok (show onConn (receiveHandshake .client (brings e x).env) _ = (.ok .noerror, _) by unfold onConn; rw [hr])]
  rfl

theorem shakes_done (hw : Waits p.conn) (hs : p.st = .connecting) (he : Fine e) {x : List UInt8} {c b b' : Buf} (h : receive true (.ok x) c = .ok (.done, b))
    (hh : isHandshake .client b = true) (hd : handshakeDec .client b = .ok ((), b')) :
    ({ p with conn := { p.conn with rx := c } } : Cli).next (brings e x) .linkData = .ok { p with
      st := .waiting, conn := { p.conn with st := .connected, armed := true, rx := b'.reset, log := p.conn.log ++ [.note .connected] ++ [.sent openRequest] }, log := p.log ++ [.connected] ++ [.sent openRequest true] } := by
  obtain ⟨⟨cst, rx, link, opened, timer, armed, clog⟩, st, log⟩ := p
  obtain ⟨h1, h2, h3, h4, h5, h6⟩ := hw
  simp only at h1 h2 h3 h4 h5 h6 hs
  subst h1 h2 h3 h4 hs
  have hr := shake_done (r := .client) (e := (brings e x).env) (c := ⟨.handshake, c, true, true, true, armed, clog⟩) rfl rfl rfl h hh hd
  have hsn := send_run (e := (brings e x).env) (c := ⟨.connected, b', true, true, true, false, clog ++ [.note .connected]⟩) rfl rfl he.writes openRequest
  have hc : handleConnected (brings e x) (Cli.mk ⟨.connected, b', true, true, true, false, clog ++ [.note .connected]⟩ .connecting log) =
      (.ok (), Cli.mk ⟨.connected, b', true, true, true, false, clog ++ [.note .connected] ++ [.sent openRequest]⟩ .waiting (log ++ [.connected] ++ [.sent openRequest true])) := by
    show (sendOpenReq (brings e x) >>= _) (Cli.mk ⟨.connected, b', true, true, true, false, clog ++ [.note .connected]⟩ .connecting (log ++ [.connected])) = _
    have : sendOpenReq (brings e x) (Cli.mk ⟨.connected, b', true, true, true, false, clog ++ [.note .connected]⟩ .connecting (log ++ [.connected])) =
        (.ok (), Cli.mk ⟨.connected, b', true, true, true, false, clog ++ [.note .connected] ++ [.sent openRequest]⟩ .connecting (log ++ [.connected] ++ [.sent openRequest true])) := by
      unfold sendOpenReq
      rw [bind_ok (show lift (frame garbage openReqEnc) _ = (.ok openRequest, _) by rw [request_frame]; rfl)]
      rw [bind_ok (show onConn (send (brings e x).env openRequest) _ = (.ok .done, _) by unfold onConn; rw [hsn])]
      rfl
    rw [bind_ok this]
    rfl
  have ht := timer_starts (e := (brings e x).env) (c := ⟨.connected, b'.reset, true, true, true, false, clog ++ [.note .connected] ++ [.sent openRequest]⟩) rfl he.good.avail.starts
  show settle ((onConn (receiveHandshake .client (brings e x).env) >>= _) (Cli.mk ⟨.handshake, c, true, true, true, armed, clog⟩ .connecting log)) = _
  rw [bind_ok (show onConn (receiveHandshake .client (brings e x).env) _ = (.ok .done, _) by unfold onConn; rw [hr])]
  show settle ((handleConnected (brings e x) >>= _) (Cli.mk ⟨.connected, b', true, true, true, false, clog ++ [.note .connected]⟩ .connecting log)) = _
  rw [bind_ok hc]
  show settle (onConn (startTimer (brings e x).env) (Cli.mk ⟨.connected, b'.reset, true, true, true, false, clog ++ [.note .connected] ++ [.sent openRequest]⟩ .waiting (log ++ [.connected] ++ [.sent openRequest true]))) = _
  unfold onConn
  rw [ht]
  rfl

/-- C109: a client channel answers the acknowledge, however it is cut, with its open request. -/
theorem acknowledged (hw : Waits p.conn) (hs : p.st = .connecting) {cut : List UInt8 → List (KEnv × List UInt8)} (hn : Net Fine cut) :
    ∃ c, p.run (receives (cut ackFrame)) = .ok { p with conn := c, st := .waiting, log := p.log ++ [.connected] ++ [.sent openRequest true] } ∧ Ready c ∧
      c.timer = true ∧ c.log = p.conn.log ++ [.note .connected, .sent openRequest] := by
  obtain ⟨e, c0, x, he, hrecv, hrun⟩ := feed_net (σ := Cli) (next := fun s e x => s.next (brings e x) .linkData) hn
    (mk := fun b => { p with conn := { p.conn with rx := b } }) hw.tail hw.head (fun e x c c' h => shakes_on hw h) (d := ackFrame) (by decide) (by decide)
  have h0 : memRead p.conn.rx.packet 0 p.conn.rx.head = [] := by rw [hw.head]; rfl
  have hbb : (p.conn.rx.append ackFrame).bytes = ackFrame := by
    unfold Buf.bytes
    rw [show (p.conn.rx.append ackFrame).tail = 0 from hw.tail]
    exact memRead_append p.conn.rx [] ackFrame h0
  obtain ⟨b', hd⟩ := C47_ack (p.conn.rx.append ackFrame) hw.tail
  have hh : isHandshake .client (p.conn.rx.append ackFrame) = true := letters_isHandshake (by rw [hbb]; decide) (by rw [hbb]; rfl)
  refine ⟨{ p.conn with st := .connected, armed := true, rx := b'.reset, log := p.conn.log ++ [.note .connected] ++ [.sent openRequest] }, ?_,
    ⟨rfl, hw.link, hw.opened, rfl, rfl⟩, hw.timer, by simp⟩
  rw [run_receives, show p = { p with conn := { p.conn with rx := p.conn.rx } } from rfl, hrun]
  exact shakes_done hw hs he hrecv hh hd

theorem calls_brings (e : KEnv) (d d' : List UInt8) (xs : List KCall) : calls (brings e d) xs = calls (brings e d') xs := by
  induction xs with
  | nil => rfl
  | cons x xs ih =>
    show (call (brings e d) x >>= fun _ => calls (brings e d) xs) = (call (brings e d') x >>= fun _ => calls (brings e d') xs)
    rw [ih, show call (brings e d) x = call (brings e d') x by cases x <;> rfl]

theorem handleData_brings (e : KEnv) (d d' : List UInt8) : handleData (brings e d) = handleData (brings e d') := by
  have h : notify (brings e d) .error = notify (brings e d') .error := by
    show (act (.note .error) >>= fun _ => calls (brings e d) e.react) = (act (.note .error) >>= fun _ => calls (brings e d') e.react)
    rw [calls_brings e d d']
  unfold handleData
  rw [h, show receiveOpenRsp (brings e d) = receiveOpenRsp (brings e d') from rfl]

/-- A piece that does not complete the chunk. -/
theorem next_waits {b b' : Buf} {x : List UInt8} (hr : Ready p.conn) (h : receive true (.ok x) b = .ok (.noerror, b')) :
    ({ p with conn := { p.conn with rx := b } } : Cli).next (brings e x) .linkData = .ok { p with conn := { p.conn with rx := b' } } := by
  obtain ⟨⟨cst, rx, link, opened, timer, armed, clog⟩, st, log⟩ := p
  obtain ⟨h1, h2, h3, h4, h5⟩ := hr
  simp only at h1 h2 h3 h4 h5
  subst h1 h2 h3
  show settle ((onConn (receiveRx (brings e x).env) >>= _) (Cli.mk ⟨.connected, b, true, true, timer, armed, clog⟩ st log)) = _
  rw [bind_ok (show onConn (receiveRx (brings e x).env) _ = (.ok .noerror, Cli.mk ⟨.connected, b', true, true, timer, armed, clog⟩ st log) by
    unfold onConn receiveRx
    simp only [if_true, show (brings e x).env.rx = .ok x from rfl, h])]
  rfl

/-- The piece that completes it. -/
theorem next_completes {b b' : Buf} {x : List UInt8} (hr : Ready p.conn) (h : receive true (.ok x) b = .ok (.done, b')) :
    ({ p with conn := { p.conn with rx := b } } : Cli).next (brings e x) .linkData = settle ((handleData (brings e x) >>= fun _ => onConn receivePreaction)
      { p with conn := { p.conn with rx := b', log := p.conn.log ++ [.note (.data b'.bytes)] } }) := by
  obtain ⟨⟨cst, rx, link, opened, timer, armed, clog⟩, st, log⟩ := p
  obtain ⟨h1, h2, h3, h4, h5⟩ := hr
  simp only at h1 h2 h3 h4 h5
  subst h1 h2 h3
  show settle ((onConn (receiveRx (brings e x).env) >>= _) (Cli.mk ⟨.connected, b, true, true, timer, armed, clog⟩ st log)) = _
  rw [bind_ok (show onConn (receiveRx (brings e x).env) _ = (.ok .done, Cli.mk ⟨.connected, b', true, true, timer, armed, clog⟩ st log) by
    unfold onConn receiveRx
    simp only [if_true, show (brings e x).env.rx = .ok x from rfl, h])]
  rfl

/-- Of a chunk of at most 1024 bytes only the last piece matters. -/
theorem whole_net (hr : Ready p.conn) {cut : List UInt8 → List (KEnv × List UInt8)} (hn : Net Fine cut) {d : List UInt8} (hd : IsChunk d) (hl : d.length ≤ 1024) :
    ∃ e, Fine e ∧ p.run (receives (cut d)) = p.next (brings e d) .linkData := by
  obtain ⟨e, c0, x, he, hrecv, hrun⟩ := feed_net (σ := Cli) (next := fun s e x => s.next (brings e x) .linkData) hn
    (mk := fun b => { p with conn := { p.conn with rx := b } }) hr.tail hr.head (fun e x c c' h => next_waits hr h) hd hl
  refine ⟨e, he, ?_⟩
  have h1 := next_completes (p := p) (e := e) hr hrecv
  have h2 := next_completes (p := p) (e := e) (b := p.conn.rx) (x := d) hr (receive_ok (by rw [hr.head]; omega) (by rw [hr.head]; omega) (by
    have := evaluate_prefix (p.conn.rx.append d) d [] hr.tail (memRead_append p.conn.rx [] d (by rw [hr.head]; rfl)) (by rw [List.append_nil]; exact hd)
    rw [if_pos rfl] at this
    exact this))
  rw [run_receives, show p = { p with conn := { p.conn with rx := p.conn.rx } } from rfl, hrun, h1]
  exact (h2.trans (by rw [handleData_brings e d x])).symm

/-- The timer of an established channel whose user does nothing when told. -/
theorem expires (hs : p.st = .established) (hc : p.conn.st = .connected) (hl : p.conn.link = true) (ht : p.conn.timer = true) (he : e.react = []) :
    ∃ c, p.next e .timer = .ok { conn := c, st := .init, log := p.log ++ [.note .closed] } ∧ c.st = .init ∧ c.link = false ∧ c.timer = false ∧
      c.log = p.conn.log ++ [.note .closed] := by
  obtain ⟨⟨cst, rx, link, opened, timer, armed, clog⟩, st, log⟩ := p
  simp only at hs hc hl ht
  subst hs hc hl ht
  refine ⟨⟨.init, rx, false, false, false, false, clog ++ [.note .closed]⟩, ?_, rfl, rfl, rfl, rfl⟩
  have h : handleEnd e .closed (Cli.mk ⟨.connected, rx, true, false, true, false, clog ++ [.note .closed]⟩ .established log) =
      (.ok (), Cli.mk ⟨.connected, rx, true, false, true, false, clog ++ [.note .closed]⟩ .init (log ++ [.note .closed])) := by
    show ((notify e .closed) >>= fun _ => toInit) _ = _
    unfold notify
    rw [he]
    rfl
  show settle ((handleEnd e .closed >>= fun _ => onConn Ua.toInit) (Cli.mk ⟨.connected, rx, true, false, true, false, clog ++ [.note .closed]⟩ .established log)) = _
  rw [bind_ok h]
  rfl

end Cli

namespace Peer

open SM

theorem expires {s : Peer} {e : PEnv} (hs : s.st = .established) (hc : s.conn.st = .connected) (hl : s.conn.link = true) (ht : s.conn.timer = true)
    (he : e.react = []) : ∃ c, s.next e .timer = .ok { s with conn := c, st := .init, log := s.log ++ [.note .closed] } ∧ c.st = .init ∧ c.link = false ∧
      c.timer = false ∧ c.log = s.conn.log ++ [.note .closed] := by
  obtain ⟨⟨cst, rx, link, opened, timer, armed, clog⟩, st, id, tx, rxSeq, reqId, lifetime, token, log⟩ := s
  simp only at hs hc hl ht
  subst hs hc hl ht
  refine ⟨⟨.init, rx, false, false, false, false, clog ++ [.note .closed]⟩, ?_, rfl, rfl, rfl, rfl⟩
  have h : handleEnd e .closed (Peer.mk ⟨.connected, rx, true, false, true, false, clog ++ [.note .closed]⟩ .established id tx rxSeq reqId lifetime token log) =
      (.ok (), Peer.mk ⟨.connected, rx, true, false, true, false, clog ++ [.note .closed]⟩ .init id tx rxSeq reqId lifetime token (log ++ [.note .closed])) := by
    show ((notify e .closed) >>= fun _ => toInit) _ = _
    unfold notify
    rw [he]
    rfl
  show settle ((handleEnd e .closed >>= fun _ => onConn Ua.toInit) (Peer.mk ⟨.connected, rx, true, false, true, false, clog ++ [.note .closed]⟩ .established id tx rxSeq reqId lifetime token log)) = _
  rw [bind_ok h]
  rfl

end Peer

/-! ## Both -/

/-- The bytes written last by a connection, a client channel and a server channel. -/
def written (l : List Act) : List UInt8 := (l.filterMap fun a => match a with | .sent d => some d | _ => none).getLast?.getD []
def Cli.sentLast (l : List KAct) : List UInt8 := (l.filterMap fun a => match a with | .sent d _ => some d | _ => none).getLast?.getD []
def Peer.sentLast (l : List PAct) : List UInt8 := (l.filterMap fun a => match a with | .sent d _ => some d | _ => none).getLast?.getD []

/-- The circumstances of a meeting: of the calls of `open`, of the link coming up, of the four ways through the network, and of the two timers. -/
structure Meeting where
  kopen : KEnv
  kup : KEnv
  fopen : PEnv
  hello : List UInt8 → List (PEnv × List UInt8)
  ack : List UInt8 → List (KEnv × List UInt8)
  request : List UInt8 → List (PEnv × List UInt8)
  answer : List UInt8 → List (KEnv × List UInt8)
  kend : KEnv
  fend : PEnv

/-- Nothing is missing, and the users do nothing when they are told of the end. -/
structure Meeting.Fine (m : Meeting) : Prop where
  kopen : Cli.Good m.kopen
  kup : Cli.Fine m.kup
  fopen : Peer.Good m.fopen
  hello : Net Peer.Fine m.hello
  ack : Net Cli.Fine m.ack
  request : Net Peer.Fine m.request
  answer : Net Cli.Fine m.answer
  kend : Cli.Good m.kend ∧ m.kend.react = []
  fend : Peer.Good m.fend ∧ m.fend.react = []

/-- A client and a server that have only each other: what the one writes is what the other one reads. -/
def meet (m : Meeting) (p : Cli) (s : Peer) : Exec (Cli × Peer) := do
  let p1 ← p.run [(m.kopen, .user .open), (m.kup, .linkConnected)]
  let s1 ← s.run [(m.fopen, .user .open)]
  let s2 ← s1.run (Peer.receives (m.hello (written p1.conn.log)))
  let p2 ← p1.run (Cli.receives (m.ack (written s2.conn.log)))
  let s3 ← s2.run (Peer.receives (m.request (Cli.sentLast p2.log)))
  let p3 ← p2.run (Cli.receives (m.answer (Peer.sentLast s3.log)))
  pure (p3, s3)

/-- An idle client channel, whatever it did before. -/
structure Cli.Idle (p : Cli) : Prop where
  reach : ∃ es, Cli.From es p ∧ ∀ x ∈ es, Cli.Good x.1
  st : p.st = .init
  conn : p.conn.st = .init

/-- An idle server channel, whatever it did before with chunks that hold their headers. -/
structure Peer.Idle (s : Peer) : Prop where
  reach : ∃ es, Peer.From es s ∧ ∀ x ∈ es, Peer.Good x.1
  longs : Peer.Longs s.log
  st : s.st = .init
  conn : s.conn.st = .init

theorem Peer.reach_run {s s' : Peer} {es : List (PEnv × Peer.Ev)} (h : ∃ es, Peer.From es s ∧ ∀ x ∈ es, Peer.Good x.1) (hg : ∀ x ∈ es, Peer.Good x.1)
    (hr : s.run es = .ok s') : ∃ es, Peer.From es s' ∧ ∀ x ∈ es, Peer.Good x.1 := by
  obtain ⟨fs, ⟨m, id, rx, rq, lt, tk, hf⟩, hgs⟩ := h
  refine ⟨fs ++ es, ⟨m, id, rx, rq, lt, tk, by rw [Peer.run_append, hf]; exact hr⟩, fun x hx => ?_⟩
  rcases List.mem_append.1 hx with hx | hx
  · exact hgs x hx
  · exact hg x hx

theorem Cli.reach_run {s s' : Cli} {es : List (KEnv × Cli.Ev)} (h : ∃ es, Cli.From es s ∧ ∀ x ∈ es, Cli.Good x.1) (hg : ∀ x ∈ es, Cli.Good x.1)
    (hr : s.run es = .ok s') : ∃ es, Cli.From es s' ∧ ∀ x ∈ es, Cli.Good x.1 := by
  obtain ⟨fs, ⟨m, hf⟩, hgs⟩ := h
  refine ⟨fs ++ es, ⟨m, by rw [Cli.run_append, hf]; exact hr⟩, fun x hx => ?_⟩
  rcases List.mem_append.1 hx with hx | hx
  · exact hgs x hx
  · exact hg x hx

theorem Peer.receives_good {cut : List UInt8 → List (PEnv × List UInt8)} (hn : Net Peer.Fine cut) (d : List UInt8) :
    ∀ x ∈ Peer.receives (cut d), Peer.Good x.1 := by
  intro x hx
  obtain ⟨y, hy, rfl⟩ := List.mem_map.1 hx
  have := (hn.fine d y hy).good
  exact ⟨⟨this.avail.link, this.avail.timer, this.avail.connects, this.avail.starts⟩, this.calm⟩

theorem Cli.receives_good {cut : List UInt8 → List (KEnv × List UInt8)} (hn : Net Cli.Fine cut) (d : List UInt8) :
    ∀ x ∈ Cli.receives (cut d), Cli.Good x.1 := by
  intro x hx
  obtain ⟨y, hy, rfl⟩ := List.mem_map.1 hx
  have := (hn.fine d y hy).good
  exact ⟨⟨this.avail.link, this.avail.timer, this.avail.connects, this.avail.starts⟩, this.calm⟩

/-- The Hello of the library is one of the standard. -/
def ownHello : HelloMessage := { (Ua.init : HelloMessage) with receiveBufferSize := 65536, sendBufferSize := 65536, maxMessageSize := 65536, maxChunkCount := 5000 }

theorem ownHello_frame : helloFrame = hello (wire ownHello) := by decide +kernel

theorem ownHello_std : std false ownHello (wire ownHello) :=
  Accepts.canon ownHello ⟨trivial, trivial, trivial, trivial, trivial, Nat.two_pow_pos 31⟩

theorem written_last (l : List Act) (d : List UInt8) : written (l ++ [.sent d]) = d := by
  unfold written
  rw [List.filterMap_append]
  simp

/-- The answer of the server, as the client reads it. -/
theorem answer_own {id t n : UInt32} {ans : List UInt8} (h : Channel.AnswersOpen ans id t n 0 0 0) :
    Cli.Answer (Peer.chunk Peer.opn id ans) 0 79 ∧ (Peer.chunk Peer.opn id ans).length = 135 := by
  obtain ⟨sec, rsp, ha, hsec, hh, hp, hn, hc, ht, hl⟩ := h
  have hx : wire rsp.serverNonce = [0xFF, 0xFF, 0xFF, 0xFF] := by rw [hn]; rfl
  obtain ⟨x, y, hx1, hy1, hw1⟩ := Cli.answer_bytes hp
  have hlen : (wire (Cont.make 449 rsp)).length = 56 := by
    rw [hw1, hx]
    simp only [List.length_append, hx1, hy1, MsgStorage.length_leBytes, List.length_cons, List.length_nil]
  have hsl : (wire sec).length = 59 := by rw [hsec]; rfl
  have hans : ans.length = 123 := by
    rw [ha, List.length_append, List.length_append, hlen, hsl]
    rfl
  have hfit : (Peer.chunk Peer.opn id ans).length = 135 := by
    unfold Peer.chunk Peer.opn
    simp only [List.length_append, List.length_cons, List.length_nil, MsgStorage.length_leBytes, hans]
  exact ⟨⟨⟨id, sec, _, rsp, by rw [hsec]; exact Cli.sec_ok _ (by decide +kernel), hp, hl, by rw [hsl], by rw [ha]⟩, by omega⟩, hfit⟩

/-- C109: an idle client channel and an idle server channel of the library, whatever they did before, open a secure channel with each other, however the
network cuts the four messages.  The client has sent one open request, which the server has read byte for byte, and has accepted the answer, which is what the
server has sent: it names the channel, a token, no life time, and the number that comes next.  Neither user was told of an error.  The server is
ready for every conversation (`Speaks`, C108). -/
theorem C109_opens {p : Cli} {s : Peer} {m : Meeting} (hp : p.Idle) (hs : s.Idle) (hm : m.Fine) : ∃ p' s' request id t ans,
    meet m p s = .ok (p', s') ∧ id = m.fopen.id ∧
    p'.log = p.log ++ [.opening, .connected, .sent request true, .got (Peer.chunk Peer.opn id ans), .accepted] ∧ p'.st = .established ∧ Ready p'.conn ∧
    s'.log = s.log ++ [.opening id, .got request, .moved 0 0, .issued t, .sent (Peer.chunk Peer.opn id ans) true] ∧
    Channel.AnswersOpen ans id t (UInt32.ofNat (Peer.count s.log + 1)) 0 0 0 ∧ Peer.Speaks s' id ⟨t, 0, 0, UInt32.ofNat (Peer.count s.log + 2)⟩ ∧
    (∃ es, Cli.From es p' ∧ ∀ x ∈ es, Cli.Good x.1) := by
  obtain ⟨c1, h1, w1, l1⟩ := Cli.opens_link hp.st hp.conn hm.kopen hm.kup
  obtain ⟨d1, g1, v1, k1⟩ := Peer.opens_link hs.st hs.conn hm.fopen
  have hh : written c1.log = hello (wire ownHello) := by
    rw [l1, show p.conn.log ++ [Act.attempt, Act.sent helloFrame] = (p.conn.log ++ [Act.attempt]) ++ [Act.sent helloFrame] by simp, written_last, ownHello_frame]
  obtain ⟨d2, g2, r2, t2, k2⟩ := Peer.greeted_by (s := { s with conn := d1, st := .connecting, id := m.fopen.id, log := s.log ++ [.opening m.fopen.id] }) v1 rfl hm.hello
    ownHello_std (by decide +kernel)
  have ha : written d2.log = ackFrame := by
    rw [k2, Transport.ackFrame_eq]
    show written (_ ++ [Act.sent _, Act.note .connected]) = _
    unfold written
    rw [List.filterMap_append]
    simp
  obtain ⟨c2, h2, r3, t3, l3⟩ := Cli.acknowledged (p := { p with conn := c1, st := .connecting, log := p.log ++ [.opening] }) w1 rfl hm.ack
  have hq : Cli.sentLast (p.log ++ [.opening] ++ [.connected] ++ [.sent Cli.openRequest true]) = Cli.openRequest := by
    unfold Cli.sentLast
    rw [List.filterMap_append]
    simp
  generalize hs2 : ({ s with conn := d2, st := .waiting, id := m.fopen.id, log := s.log ++ [.opening m.fopen.id] } : Peer) = s2 at *
  have hlog2 : s2.log = s.log ++ [.opening m.fopen.id] := by rw [← hs2]
  have hrd2 : Ready s2.conn := by rw [← hs2]; exact r2
  have hg1 : s.run [(m.fopen, .user .open)] = .ok { s with conn := d1, st := .connecting, id := m.fopen.id, log := s.log ++ [.opening m.fopen.id] } := by
    show (s.next _ _ >>= fun q => q.run []) = _
    rw [g1]
    rfl
  obtain ⟨es2, hf2, hgd2⟩ := Peer.reach_run (Peer.reach_run hs.reach (by simpa using hm.fopen) hg1) (Peer.receives_good hm.hello _) g2
  have hlg2 : Peer.Longs s2.log := by
    rw [hlog2]
    intro d hd
    rcases List.mem_append.1 hd with hd | hd
    · exact hs.longs d hd
    · simp at hd
  obtain ⟨e, he, hrun⟩ := Peer.whole_net hrd2 hm.request (d := Cli.openRequest) (by decide) (by decide)
  obtain ⟨s3, id, ans, o1, o2, o3, o4, o5⟩ := Peer.opens (k := ⟨0, 0, 0, 0⟩) hf2 hgd2 hrd2 hlg2 (e := e) he.good 0 (Ua.init : UaSecurityHeader) ⟨0, 0⟩
    (Cont.make 446 (Ua.init : UaOpenSecureChannelReq)) ⟨Cli.sec_ok [] (Nat.two_pow_pos 31), Cli.request_ok, by decide +kernel⟩
  have o1 : s2.next (Peer.brings e Cli.openRequest) .linkData = .ok s3 := by
    rw [← o1, Cli.request_chunk]
    have henv : ∀ x, Peer.brings e x = { e with env := { e.env with rx := .ok x, writes := true } } := by
      intro x
      rw [← he.writes]
      rfl
    rw [henv]
    rfl
  have hid : id = m.fopen.id := by
    rw [hlog2] at o2
    unfold Peer.chanId at o2
    rw [List.foldl_append] at o2
    exact (Option.some.inj o2).symm
  have hcount : Peer.count s2.log = Peer.count s.log := by
    rw [hlog2]
    unfold Peer.count
    rw [List.foldl_append]
    rfl
  rw [hcount] at o3
  obtain ⟨hans, hlen⟩ := answer_own o3
  have hsl : Peer.sentLast s3.log = Peer.chunk Peer.opn id ans := by
    rw [o4]
    unfold Peer.sentLast
    rw [List.filterMap_append]
    simp
  generalize hp2 : ({ p with conn := c2, st := .waiting, log := p.log ++ [.opening] ++ [.connected] ++ [.sent Cli.openRequest true] } : Cli) = p2 at *
  have hrp : Ready p2.conn := by rw [← hp2]; exact r3
  have hlogp : p2.log = p.log ++ [.opening] ++ [.connected] ++ [.sent Cli.openRequest true] := by rw [← hp2]
  obtain ⟨f, hf, hrun2⟩ := Cli.whole_net hrp hm.answer (Cli.answer_type hans).1 (by omega)
  obtain ⟨p3, q1, q2, q3, q4⟩ := Cli.C58_accepts_partial (e := Cli.brings f (Peer.chunk Peer.opn id ans)) hrp (by rw [← hp2]) hans rfl (by decide)
  have hreach := Cli.reach_run (Cli.reach_run (Cli.reach_run hp.reach (by
    intro x hx
    simp only [List.mem_cons, List.not_mem_nil, or_false] at hx
    rcases hx with rfl | rfl
    · exact hm.kopen
    · exact hm.kup.good) h1) (Cli.receives_good hm.ack _) h2) (Cli.receives_good hm.answer _) (hrun2.trans q1)
  refine ⟨p3, s3, Cli.openRequest, id, e.token, ans, ?_, hid, ?_, q2, q4, ?_, o3, ?_, hreach⟩
  · unfold meet
    rw [h1, Exec.ok_bind, hg1, Exec.ok_bind]
    show (Peer.run _ (Peer.receives (m.hello (written c1.log))) >>= _) = _
    rw [hh, g2, Exec.ok_bind, show s2.conn.log = d2.log by rw [← hs2], ha, h2, Exec.ok_bind, hlogp, hq, hrun, o1, Exec.ok_bind, hsl, hrun2, q1]
    rfl
  · rw [q3, hlogp]
    simp only [List.append_assoc, List.cons_append, List.nil_append]
  · rw [o4, hlog2, ← Cli.request_chunk, hid]
    simp only [List.append_assoc, List.cons_append, List.nil_append]
  · have := o5
    unfold Peer.known at this
    rw [hcount] at this
    exact this

/-- A meeting that ends when the timers of both sides run out. -/
def meetOnce (m : Meeting) (p : Cli) (s : Peer) : Exec (Cli × Peer) := do
  let (p', s') ← meet m p s
  let p'' ← p'.next m.kend .timer
  let s'' ← s'.next m.fend .timer
  pure (p'', s'')

/-- One after the other. -/
def meetings : List Meeting → Cli → Peer → Exec (Cli × Peer)
  | [], p, s => pure (p, s)
  | m :: ms, p, s => do
    let (p', s') ← meetOnce m p s
    meetings ms p' s'

theorem meetOnce_run {p : Cli} {s : Peer} {m : Meeting} (hp : p.Idle) (hs : s.Idle) (hm : m.Fine) : ∃ p' s' x y t,
    meetOnce m p s = .ok (p', s') ∧ p'.Idle ∧ s'.Idle ∧ p'.conn.link = false ∧ p'.conn.timer = false ∧ s'.conn.link = false ∧ s'.conn.timer = false ∧
    p'.log = p.log ++ [.opening, .connected, .sent x true, .got y, .accepted, .note .closed] ∧
    s'.log = s.log ++ [.opening m.fopen.id, .got x, .moved 0 0, .issued t, .sent y true, .note .closed] := by
  obtain ⟨p1, s1, x, id, t, ans, h1, h2, h3, h4, h5, h6, h7, h8, h9⟩ := C109_opens hp hs hm
  have hpt : p1.conn.timer = true := by
    obtain ⟨es, g1, g2⟩ := h9
    obtain ⟨_, c, _, _, hh⟩ := Cli.from_ok g1 g2
    have hc : c = .connected := by rw [← hh.conn.1]; exact h5.st
    subst hc
    exact hh.conn.2.timer.2 (by rw [h5.st]; simp)
  have hst : s1.conn.timer = true := by
    obtain ⟨es, g1, g2⟩ := h8.reach
    obtain ⟨_, c, _, _, hh⟩ := Peer.from_ok g1 g2
    have hc : c = .connected := by rw [← hh.conn.1]; exact h8.ready.st
    subst hc
    exact hh.conn.2.timer.2 (by rw [h8.ready.st]; simp)
  obtain ⟨c, e1, e2, e3, e4, -⟩ := Cli.expires (e := m.kend) h4 h5.st h5.link hpt hm.kend.2
  obtain ⟨d, f1, f2, f3, f4, -⟩ := Peer.expires (e := m.fend) h8.state.1 h8.ready.st h8.ready.link hst hm.fend.2
  refine ⟨_, _, x, Peer.chunk Peer.opn id ans, t, by unfold meetOnce; rw [h1]; show (p1.next _ _ >>= _) = _; rw [e1, Exec.ok_bind, f1]; rfl,
    ⟨Cli.reach_run h9 (es := [(m.kend, .timer)]) (by simpa using hm.kend.1) (by show (p1.next _ _ >>= fun q => q.run []) = _; rw [e1]; rfl), rfl, e2⟩,
    ⟨Peer.reach_run h8.reach (es := [(m.fend, .timer)]) (by simpa using hm.fend.1) (by show (s1.next _ _ >>= fun q => q.run []) = _; rw [f1]; rfl), ?_, rfl, f2⟩,
    e3, e4, f3, f4, ?_, ?_⟩
  · intro z hz
    have hz : PAct.got z ∈ s1.log ++ [.note .closed] := hz
    rcases List.mem_append.1 hz with hz | hz
    · exact h8.longs z hz
    · simp at hz
  · show p1.log ++ _ = _
    rw [h3]
    simp only [List.append_assoc, List.cons_append, List.nil_append]
  · show s1.log ++ _ = _
    rw [h6, h2]
    simp only [List.append_assoc, List.cons_append, List.nil_append]

/-- C109: the same two objects do so again and again.  Each meeting opens one secure channel on both sides and ends when the timers run out, of which each
user is told once; there are no errors, and no links or timers are left. -/
theorem C109_again {p : Cli} {s : Peer} (hp : p.Idle) (hs : s.Idle) (ms : List Meeting) (hm : ∀ m ∈ ms, m.Fine) : ∃ p' s' lp ls,
    meetings ms p s = .ok (p', s') ∧ p'.Idle ∧ s'.Idle ∧ (ms ≠ [] → p'.conn.link = false ∧ p'.conn.timer = false ∧ s'.conn.link = false ∧ s'.conn.timer = false) ∧
    p'.log = p.log ++ lp ∧ s'.log = s.log ++ ls ∧ lp.count .accepted = ms.length ∧ lp.count (.note .closed) = ms.length ∧ lp.count (.note .error) = 0 ∧
    (ls.filter fun a => a matches .issued _).length = ms.length ∧ ls.count (.note .closed) = ms.length ∧ ls.count (.note .error) = 0 := by
  induction ms generalizing p s with
  | nil => exact ⟨p, s, [], [], rfl, hp, hs, by simp, by simp, by simp, by simp, by simp, by simp, by simp, by simp, by simp⟩
  | cons m ms ih =>
    obtain ⟨p1, s1, x, y, t, h1, h2, h3, h4, h5, h6, h7, h8, h9⟩ := meetOnce_run hp hs (hm m (by simp))
    obtain ⟨p2, s2, lp, ls, g1, g2, g3, g4, g5, g6, g7, g8, g9, g10, g11, g12⟩ := ih h2 h3 (fun n hn => hm n (by simp [hn]))
    refine ⟨p2, s2, _, _, ?_, g2, g3, ?_, by rw [g5, h8, List.append_assoc], by rw [g6, h9, List.append_assoc], ?_, ?_, ?_, ?_, ?_, ?_⟩
    · show (meetOnce m p s >>= fun q => meetings ms q.1 q.2) = _
      rw [h1]
      exact g1
    · intro _
      cases ms with
      | nil =>
        have : (p1, s1) = (p2, s2) := Exec.ok.inj g1
        injection this with q1 q2
        subst q1 q2
        exact ⟨h4, h5, h6, h7⟩
      | cons n ns => exact g4 (by simp)
    · simp [g7]
    · simp [g8]
    · simp [g9]
    · simp [g10]
    · simp [g11]
    · simp [g12]

/-- A network that carries one byte at a time. -/
theorem single_net {E : Type} {fine : E → Prop} {e : E} (he : fine e) : Net fine (fun d => d.map fun b => (e, [b])) where
  flat d := by induction d with
    | nil => rfl
    | cons b d ih => rw [List.map_cons, List.map_cons, List.flatten_cons, ih]; rfl
  some d x hx := by obtain ⟨b, -, rfl⟩ := List.mem_map.1 hx; simp
  fine d x hx := by obtain ⟨b, -, rfl⟩ := List.mem_map.1 hx; exact he

theorem pieces_net {E : Type} {fine : E → Prop} {e : E} (he : fine e) (n : Nat) :
    Net fine (fun d => (if d.take n = [] then [] else [(e, d.take n)]) ++ if d.drop n = [] then [] else [(e, d.drop n)]) where
  flat d := by
    conv => rhs; rw [← List.take_append_drop n d]
    by_cases h1 : d.take n = [] <;> by_cases h2 : d.drop n = [] <;> simp only [h1, h2, if_true, if_false] <;> simp
  some d x hx := by
    rcases List.mem_append.1 hx with hx | hx <;> split at hx
    · simp at hx
    · rw [List.mem_singleton.1 hx]; assumption
    · simp at hx
    · rw [List.mem_singleton.1 hx]; assumption
  fine d x hx := by
    rcases List.mem_append.1 hx with hx | hx <;> split at hx
    · simp at hx
    · rw [List.mem_singleton.1 hx]; exact he
    · simp at hx
    · rw [List.mem_singleton.1 hx]; exact he

/-- A meeting over that network. -/
def slow (id : UInt32) : Meeting where
  kopen := Cli.env
  kup := Cli.env
  fopen := { Peer.env with id := id }
  hello := fun d => d.map fun b => (Peer.env, [b])
  ack := fun d => d.map fun b => (Cli.env, [b])
  request := fun d => d.map fun b => (Peer.env, [b])
  answer := fun d => d.map fun b => (Cli.env, [b])
  kend := Cli.env
  fend := Peer.env

theorem slow_fine (id : UInt32) : (slow id).Fine :=
  have hc : Cli.Good Cli.env := ⟨⟨rfl, rfl, rfl, rfl⟩, by simp [Cli.env]⟩
  have hp : Peer.Good Peer.env := ⟨⟨rfl, rfl, rfl, rfl⟩, by simp [Peer.env]⟩
  ⟨hc, ⟨hc, rfl⟩, ⟨⟨rfl, rfl, rfl, rfl⟩, by simp [slow, Peer.env]⟩, single_net ⟨hp, rfl⟩, single_net ⟨hc, rfl⟩, single_net ⟨hp, rfl⟩, single_net ⟨hc, rfl⟩, ⟨hc, rfl⟩, hp, rfl⟩

/-- C109: a fresh client and a fresh server meet three times, byte by byte. -/
example : ∃ p s, meetings [slow 5, slow 6, slow 7] (Cli.create garbage) (Peer.create garbage 0 0 0 0 0) = .ok (p, s) ∧ p.log.count .accepted = 3 ∧
    p.log.count (.note .error) = 0 ∧ s.log.count (.note .closed) = 3 ∧ s.conn.link = false := by
  obtain ⟨p, s, lp, ls, h1, -, -, h2, h3, h4, h5, -, h6, -, h7, -⟩ := C109_again (p := Cli.create garbage) (s := Peer.create garbage 0 0 0 0 0)
    ⟨⟨[], ⟨garbage, rfl⟩, by simp⟩, rfl, rfl⟩ ⟨⟨[], ⟨garbage, 0, 0, 0, 0, 0, rfl⟩, by simp⟩, by intro d hd; simp [Peer.create] at hd, rfl, rfl⟩
    [slow 5, slow 6, slow 7] (by simp [slow_fine])
  exact ⟨p, s, h1, by rw [h3]; simpa [Cli.create] using h5, by rw [h3]; simpa [Cli.create] using h6, by rw [h4]; simpa [Peer.create] using h7, (h2 (by simp)).2.2.1⟩

/-- C109: and once, in two pieces of which the first is shorter than a header. -/
example : ∃ p s id ans t, meet { slow 9 with request := fun d => (if d.take 3 = [] then [] else [(Peer.env, d.take 3)]) ++ if d.drop 3 = [] then [] else [(Peer.env, d.drop 3)] }
    (Cli.create garbage) (Peer.create garbage 0 0 0 0 0) = .ok (p, s) ∧ id = 9 ∧ p.st = .established ∧ Channel.AnswersOpen ans id t 1 0 0 0 ∧
    Peer.Speaks s id ⟨t, 0, 0, 2⟩ := by
  obtain ⟨p, s, -, id, t, ans, h1, h2, -, h3, -, -, h4, h5, -⟩ := C109_opens (p := Cli.create garbage) (s := Peer.create garbage 0 0 0 0 0)
    (m := { slow 9 with request := fun d => (if d.take 3 = [] then [] else [(Peer.env, d.take 3)]) ++ if d.drop 3 = [] then [] else [(Peer.env, d.drop 3)] })
    ⟨⟨[], ⟨garbage, rfl⟩, by simp⟩, rfl, rfl⟩ ⟨⟨[], ⟨garbage, 0, 0, 0, 0, 0, rfl⟩, by simp⟩, by intro d hd; simp [Peer.create] at hd, rfl, rfl⟩
    { slow_fine 9 with request := pieces_net ⟨⟨⟨rfl, rfl, rfl, rfl⟩, by simp [Peer.env]⟩, rfl⟩ 3 }
  exact ⟨p, s, id, ans, t, h1, h2, h3, h4, h5⟩

end Uscada.Ua
