import Verif.UaClient
import Verif.UaPeerLife
/-!
# C58: life cycle of the client secure channel of `common/ua/protocols/secure`

The channel and its connection change state together (`Pair`); what the log says follows the order of `Life.next`.
-/

namespace Uscada.Ua.Cli

open SM

/-! ## Specification -/

inductive Life where
  /-- not in use -/
  | idle
  /-- `open` was accepted -/
  | opening
  /-- the connection was reported connected -/
  | linked
  /-- the open request was given to the link -/
  | asked
  /-- an answer was accepted -/
  | secured
deriving DecidableEq, Repr

/-- The open request: type OPN, final, 85 bytes, channel 0; no policy, no certificates; sequence number 0, request 0; node
id i=446; null token, time 0, handle 0, no diagnostics, null audit string, time-out 0, no additional header; protocol
version 0, issue, security mode 0, null nonce, lifetime 0 (OPC 10000-4, 5.5.2; OPC 10000-6, 6.7.2). -/
def openRequest : List UInt8 :=
  [0x4F, 0x50, 0x4E, 0x46, 85, 0, 0, 0, 0, 0, 0, 0] ++
  [0xFF, 0xFF, 0xFF, 0xFF, 0xFF, 0xFF, 0xFF, 0xFF, 0xFF, 0xFF, 0xFF, 0xFF] ++
  [0, 0, 0, 0, 0, 0, 0, 0] ++
  [1, 0, 0xBE, 1] ++
  [0, 0] ++ [0, 0, 0, 0, 0, 0, 0, 0] ++ [0, 0, 0, 0] ++ [0, 0, 0, 0] ++ [0xFF, 0xFF, 0xFF, 0xFF] ++ [0, 0, 0, 0] ++ [0, 0, 0] ++
  [0, 0, 0, 0] ++ [0, 0, 0, 0] ++ [0, 0, 0, 0] ++ [0xFF, 0xFF, 0xFF, 0xFF] ++ [0, 0, 0, 0]

/-- One open request for each connection, sent after it is up; an answer is accepted only after that; each accepted `open`
has at most one end; then nothing until the next `open`. -/
def Life.next : Life → KAct → Option Life
  | .idle, .opening => some .opening
  | .opening, .connected => some .linked
  | .linked, .sent d _ => if d = openRequest then some .asked else none
  | .asked, .accepted => some .secured
  | .opening, .note _ => some .idle
  | .asked, .note _ => some .idle
  | .secured, .note _ => some .idle
  | s, .got _ => some s
  | _, _ => none

/-- The stage after a history, `none` if the order was broken. -/
def life (l : List KAct) : Option Life := l.foldl (fun o a => o.bind (·.next a)) (some .idle)

theorem life_snoc {l : List KAct} {a : KAct} : life (l ++ [a]) = (life l).bind (·.next a) := by
  simp [life, List.foldl_append]

theorem life_next {l : List KAct} {a : KAct} {s s' : Life} (h : life l = some s) (hn : s.next a = some s') :
    life (l ++ [a]) = some s' := by
  rw [life_snoc, h]
  exact hn

/-- The environment of an event: the reactor has links and timers, the system calls on them succeed, and the user does not
throw when notified. -/
structure Good (e : KEnv) : Prop where
  avail : Avail e.env
  calm : KCall.fail ∉ e.react

/-! ## Invariant -/

/-- State of the channel, state of the connection, stage. -/
inductive Pair : KSt → CSt → Life → Prop where
  | init : Pair .init .init .idle
  | dialing : Pair .connecting .connecting .opening
  | greeting : Pair .connecting .handshake .opening
  | asked : Pair .waiting .connected .asked
  | secured : Pair .established .connected .secured
  /-- an error was reported, the connection is still there -/
  | kept : Pair .init .connected .idle
  /-- `open` while the connection is still there -/
  | reopened : Pair .connecting .connected .opening
  /-- the connection ended while the answer was awaited -/
  | stuck : Pair .waiting .init .idle

/-- What holds of channel, connection and log. -/
structure Holds (S : KSt → Prop) (C : Conn → Prop) (l : Life) (p : Cli) : Prop where
  st : S p.st
  conn : C p.conn
  life : life p.log = some l

def Ok (p : Cli) : Prop := ∃ s c l, Pair s c l ∧ Holds (· = s) (At true c) l p

/-! ## Operations -/

attribute [local irreducible] frame openReqEnc

theorem request_frame : frame garbage openReqEnc = .ok openRequest := by decide +kernel

variable {S : KSt → Prop} {C : Conn → Prop} {l : Life} {T : Cli → Prop} {e : KEnv}

/-- An operation of the connection. -/
theorem tri_on {α : Type} {C' : Conn → Prop} {m : CM α} {D : α → Conn → Prop} (h : Tri C' C m D) (ht : ∀ p, Holds S C' l p → T p) :
    STri T (Holds S C l) (onConn m) (fun a => Holds S (D a) l) := by
  rintro p ⟨h1, h2, h3⟩
  have h4 := h p.conn h2
  unfold onConn
  match hm : m p.conn with
  | (.ok a, c) => rw [hm] at h4; exact ⟨h1, h4, h3⟩
  | (.throws, c) => rw [hm] at h4; exact ht _ ⟨h1, h4, h3⟩
  | (.abort, c) => trivial
  | (.ub, c) => trivial

theorem tri_dec {α : Type} {d : Codec α} (hc : Peer.Loose C) (ht : ∀ p, Holds S C l p → T p) :
    STri T (Holds S C l) (decode e d) (fun _ => Holds S C l) := by
  rintro p ⟨h1, h2, h3⟩
  unfold decode
  rcases hm : d p.conn.rx with a | _ | _ | _
  · exact ⟨h1, hc.rx _ _ h2, h3⟩
  · exact ht _ ⟨h1, hc.rx _ _ h2, h3⟩
  · trivial
  · trivial

theorem tri_act {a : KAct} {l' : Life} (h : l.next a = some l') : STri T (Holds S C l) (act a) (fun _ => Holds S C l') :=
  STri.modify fun _ hp => ⟨hp.st, hp.conn, life_next hp.life h⟩

theorem got_life (l : Life) (d : List UInt8) : l.next (.got d) = some l := by cases l <;> rfl

theorem tri_react (hs : ¬ S .init) (hc : Peer.Loose C) {xs : List KCall} (hx : KCall.fail ∉ xs) :
    STri T (Holds S C l) (calls e xs) (fun _ => Holds S C l) := by
  induction xs with
  | nil => exact STri.ret fun _ h => h
  | cons x xs ih =>
    refine STri.bind ?_ fun _ => ih fun h => hx (List.mem_cons_of_mem _ h)
    cases x with
    | «open» =>
      refine STri.get fun p hp => ?_
      cases h : p.st with
      | init => exact absurd (h ▸ hp.st) hs
      | _ => exact hp
    | consume n =>
      intro p hp
      exact ⟨hp.st, hc.rx _ _ hp.conn, hp.life⟩
    | fail => exact absurd List.mem_cons_self hx

theorem tri_note (hs : ¬ S .init) (hc : Peer.Loose C) (he : Good e) {n : KNote} {l' : Life} (h : l.next (.note n) = some l') :
    STri T (Holds S C l) (notify e n) (fun _ => Holds S C l') :=
  STri.bind (tri_act h) fun _ => tri_react hs hc he.calm

theorem ok_of {s : KSt} {c : CSt} (hp : Pair s c l) {p : Cli} (h : Holds (· = s) (At true c) l p) : Ok p := ⟨_, _, _, hp, h⟩

/-- What a connection event may not do to the rest. -/
theorem no {S : KSt → Prop} {l : Life} : ∀ p, Holds S (fun _ => False) l p → T p := fun _ h => h.conn.elim

/-! ## Notifications from the connection -/

theorem tri_asks {c : CSt} {k : Bool} :
    STri T (Holds (· = .connecting) (At k c) .opening) (handleConnected e) (fun _ => Holds (· = .waiting) (At k c) .asked) := by
  refine STri.bind (tri_act (l' := .linked) rfl) fun _ => STri.get fun p hp => ?_
  rw [hp.st]
  have hsend : Tri (fun _ => False) (At k c) (Uscada.Ua.send e.env openRequest) (fun _ => At k c) :=
    fun x hx => send_post openRequest hx ⟨hx.1, hx.2.sent _⟩
  refine STri.bind (P := Holds (· = .connecting) (At k c) .linked) (R := fun _ => Holds (· = .connecting) (At k c) .asked) ?_
    (fun _ => STri.modify fun p h => ⟨rfl, h.conn, h.life⟩) p hp
  unfold sendOpenReq
  rw [request_frame]
  refine STri.bind (R := fun d p => d = openRequest ∧ Holds (· = .connecting) (At k c) .linked p)
    (STri.lift (fun a c h hp => ⟨by injection h with h; exact h.symm, hp⟩) fun _ h => by cases h) fun d => ?_
  rintro p ⟨rfl, hp⟩
  refine STri.bind (tri_on hsend no) (fun r => ?_) p hp
  exact tri_act (show (if openRequest = openRequest then some Life.asked else none) = _ from if_pos rfl)

theorem tri_data (he : Good e) {s : KSt} (hp : Pair s .connected l) :
    STri Ok (Holds (· = s) (At true .connected) l) (handleData e) (fun _ => Ok) := by
  refine STri.get fun p hh => ?_
  refine STri.bind (P := Holds (· = s) (At true .connected) l) (tri_act (got_life l _)) (fun _ => ?_) p hh
  have hst : p.st = s := hh.st
  rw [hst]
  have hok := fun p h => ok_of hp (p := p) h
  cases hp with
  | kept => exact hok
  | reopened => exact hok
  | secured => exact hok
  | asked =>
    refine STri.bind (R := fun _ => Holds (· = .waiting) (At true .connected) .asked) ?_ fun x => ?_
    · refine STri.get fun p hh => ?_
      by_cases h : Peer.typeIs p.conn.rx 0x4F 0x50 0x4E = true
      · rw [if_pos h]
        refine STri.bind (P := Holds (· = .waiting) (At true .connected) .asked)
          (R := fun _ => Holds (· = .waiting) (At true .connected) .asked)
          (Q := fun _ => Holds (· = .waiting) (At true .connected) .asked) ?_ (fun _ => STri.ret fun _ h => h) p hh
        refine STri.bind (tri_dec Peer.loose_at hok) fun _ => ?_
        refine STri.bind (tri_dec Peer.loose_at hok) fun _ => ?_
        refine STri.bind (tri_dec Peer.loose_at hok) fun _ => ?_
        refine STri.bind (tri_dec Peer.loose_at hok) fun _ => ?_
        exact STri.ret fun _ h => h
      · rw [if_neg h]
        exact hh
    · cases x with
      | true => exact STri.bind (tri_act (l' := .secured) rfl) fun _ => STri.modify fun p h => ok_of .secured ⟨rfl, h.conn, h.life⟩
      | false =>
        refine STri.bind (tri_note (l' := .idle) (by simp) Peer.loose_at he rfl) fun _ => ?_
        exact STri.modify fun p h => ok_of .kept ⟨rfl, h.conn, h.life⟩

/-- After the end of a connection the channel is idle, or waits for an answer that cannot come. -/
inductive After : KSt → Prop where
  | init : After .init
  | stuck : After .waiting

theorem tri_handleEnd (he : Good e) {s : KSt} {c : CSt} (hp : Pair s c l) (hc : c ≠ .init) {n : KNote} {E : Conn → Prop} (hE : Peer.Loose E) :
    STri T (Holds (· = s) E l) (handleEnd e n) (fun _ => Holds After E .idle) := by
  refine STri.get fun p hh => ?_
  have hst : p.st = s := hh.st
  rw [hst]
  have hend : ∀ {s : KSt} {l}, s ≠ .init → l.next (.note n) = some .idle →
      STri T (Holds (· = s) E l) (notify e n >>= fun _ => toInit) (fun _ => Holds After E .idle) := fun hs hl =>
    STri.bind (tri_note (fun h => hs h.symm) hE he hl) fun _ => STri.modify fun p h => ⟨.init, h.conn, h.life⟩
  cases hp with
  | init => exact absurd rfl hc
  | stuck => exact absurd rfl hc
  | dialing => exact hend (by simp) rfl p hh
  | greeting => exact hend (by simp) rfl p hh
  | reopened => exact hend (by simp) rfl p hh
  | secured => exact hend (by simp) rfl p hh
  | kept => exact ⟨hst ▸ .init, hh.conn, hh.life⟩
  | asked =>
    exact (tri_note (S := (· = .waiting)) (l' := .idle) (by simp) hE he rfl).weaken (fun _ h => h)
      (fun _ _ h => ⟨h.st ▸ .stuck, h.conn, h.life⟩) p hh

/-! ## Events -/

theorem after_ok {p : Cli} (h : Holds After (At true .init) .idle p) : Ok p := by
  obtain ⟨h1, h2, h3⟩ := h
  generalize hs : p.st = s at h1
  cases h1 with
  | init => exact ok_of .init ⟨hs, h2, h3⟩
  | stuck => exact ok_of .stuck ⟨hs, h2, h3⟩

/-- The end of a connection. -/
theorem tri_over {s : KSt} {c : CSt} (hp : Pair s c l) (hc : c ≠ .init) (he : Good e) {n : KNote} {a : Act}
    {k : Bool} (ha : ∀ x, At k c x → Ended { x with log := x.log ++ [a] }) :
    STri T (Holds (· = s) (At k c) l) (do onConn closeLink; onConn (logAct a); handleEnd e n; onConn Uscada.Ua.toInit)
      (fun _ => Holds After (At true .init) .idle) := by
  refine STri.bind (tri_on (C' := fun _ => False) (closeLink_at hc) no) fun _ => ?_
  refine STri.bind (tri_on (C' := fun _ => False) (D := fun _ => Ended) (Tri.modify ha) no) fun _ => ?_
  refine STri.bind (tri_handleEnd he hp hc Peer.loose_ended) fun _ => ?_
  exact tri_on (C' := fun _ => False) (toInit_at true) no

theorem tri_report {s : KSt} {c : CSt} (hp : Pair s c l) (hc : c ≠ .init) (he : Good e) {k : Bool} :
    STri T (Holds (· = s) (At k c) l) (closeAndReport e) (fun _ => Holds After (At true .init) .idle) :=
  tri_over hp hc he fun _ h => ended_error hc h

theorem tri_reported {s : KSt} {c : CSt} (hp : Pair s c l) (hc : c ≠ .init) (he : Good e) :
    STri T (Holds (· = s) (At true c) l) (closeAndReport e) (fun _ => Ok) :=
  (tri_report hp hc he).weaken (fun _ h => h) fun _ _ h => after_ok h

theorem userConnect_at (ha : Avail e.env) {T : Conn → Prop} : Tri T (At true .init) (userConnect e.env) (fun _ => At true .connecting) := by
  intro c hc
  have h := userConnect_inv ha true (T := T) c hc.2
  have hst : ∀ x y, userConnect e.env c = (x, y) → x = .ok () → y.st = .connecting := by
    intro x y
    unfold userConnect
    simp only [CM.bind_run, CM.get, CM.andThen, hc.1, allocLink, allocTimer, ha.link, ha.timer, if_true, CM.modify, logAct]
    unfold toConnecting
    rw [transit_run (by simp) (by simp)]
    simp only [CM.bind_run, connectLink, startTimer, ha.connects, ha.starts, if_true, CM.andThen]
    rintro h1 _
    injection h1 with _ h1
    rw [← h1]
  match hm : userConnect e.env c with
  | (.ok a, c') => rw [hm] at h; exact ⟨hst _ _ hm rfl, h⟩
  | (.throws, c') => rw [hm] at h; exact h
  | (.abort, c') => trivial
  | (.ub, c') => trivial

theorem userConnect_busy {c : Conn} (h : c.st = .connected) : userConnect e.env c = (.ok (), c) := by
  unfold userConnect
  simp only [CM.bind_run, CM.get, CM.andThen, h]
  rfl

theorem tri_userOpen (he : Good e) : STri Ok Ok (userOpen e) (fun _ => Ok) := by
  refine STri.get fun p hp => ?_
  obtain ⟨s, c, l, hpair, hh⟩ := hp
  have hst : p.st = s := hh.st
  rw [hst]
  cases hpair with
  | init =>
    refine STri.bind (P := Holds (· = .init) (At true .init) .idle) (tri_act rfl) (fun _ => ?_) p hh
    refine STri.bind (tri_on (C' := fun _ => False) (userConnect_at he.avail) no) fun _ => ?_
    exact STri.modify fun p h => ok_of .dialing ⟨rfl, h.conn, h.life⟩
  | kept =>
    refine STri.bind (P := Holds (· = .init) (At true .connected) .idle) (tri_act rfl) (fun _ => ?_) p hh
    refine STri.bind (tri_on (C' := fun _ => False) (D := fun _ => At true .connected) (fun c hc => ?_) no) fun _ => ?_
    · rw [userConnect_busy hc.1]
      exact hc
    exact STri.modify fun p h => ok_of .reopened ⟨rfl, h.conn, h.life⟩
  | dialing => exact ok_of .dialing hh
  | greeting => exact ok_of .greeting hh
  | asked => exact ok_of .asked hh
  | secured => exact ok_of .secured hh
  | reopened => exact ok_of .reopened hh
  | stuck => exact ok_of .stuck hh

theorem tri_userCall (he : Good e) (x : KCall) : STri Ok Ok (call e x) (fun _ => Ok) := by
  cases x with
  | «open» => exact tri_userOpen he
  | consume n =>
    rintro p ⟨s, c, l, hpair, hh⟩
    exact ok_of hpair ⟨hh.st, Peer.loose_at.rx _ _ hh.conn, hh.life⟩
  | fail => exact STri.throws fun _ h => h

theorem receiveHandshake_holds {s : CSt} :
    Tri (At true s) (At true s) (receiveHandshake .client e.env) (fun _ => At true s) := by
  refine Tri.bind (Peer.receiveRx_holds (e := ⟨e.env, 0, 0, ⟨0⟩, ⟨0⟩, 0, []⟩)) fun x => ?_
  cases x with
  | noerror => exact Tri.ret fun _ h => h
  | error => exact Tri.ret fun _ h => h
  | done =>
    refine Tri.get fun c hc => ?_
    by_cases h : isHandshake .client c.rx = true
    · rw [if_pos h]
      refine Tri.bind (R := fun _ => At true s) (Q := fun _ => At true s) ?_ (fun _ => Tri.ret fun _ h => h) c hc
      intro c hc
      unfold decodeHandshake
      split
      · exact ⟨hc.1, hc.2.rx _⟩
      · exact ⟨hc.1, hc.2.rx _⟩
      · exact trivial
      · exact trivial
    · rw [if_neg h]
      exact hc

theorem tri_connected (he : Good e) : STri T (Holds (· = .connecting) (At true .handshake) .opening) (toConnected e) (fun _ => Ok) := by
  refine STri.get fun p hh => ?_
  have hcs := hh.conn.1
  rw [if_neg (by rw [hcs]; simp), hcs]
  have h1 : Tri (fun _ => False) (At true .handshake) (exit .handshake) (fun _ => At false .handshake) := by
    intro c hc
    show Post _ _ (stopTimer c)
    rw [stopTimer_run (hc.2.timer.2 (by rw [hc.1]; simp))]
    exact ⟨hc.1, hc.2.link, hc.2.timer, by simp, (fun h => by have := hc.1.symm.trans h; cases this), hc.2.phase⟩
  have h2 : Tri (fun _ => False) (At false .handshake) (CM.modify fun c => { c with st := .connected })
      (fun _ c => c.st = .connected ∧ c.link = true ∧ c.timer = true ∧ phase c.log = some .trying) := by
    refine Tri.modify fun c hc => ⟨rfl, hc.2.link.2 (by rw [hc.1]; simp), hc.2.timer.2 (by rw [hc.1]; simp), ?_⟩
    have := hc.2.phase
    rw [hc.1] at this
    exact this
  have h3 : Tri (fun _ => False) (fun c => c.st = .connected ∧ c.link = true ∧ c.timer = true ∧ phase c.log = some .trying)
      (logAct (.note .connected)) (fun _ => At false .connected) := by
    refine Tri.modify fun c ⟨a, b, d, f⟩ => ⟨a, by simp [a, b], by simp [a, d], by simp, fun h => ?_, ?_⟩
    · have h : c.st = .init := h
      rw [a] at h
      cases h
    · rw [a]
      exact phase_append f rfl
  have h4 : Tri (fun _ => False) (At false .connected) receivePreaction (fun _ => At false .connected) :=
    Tri.modify fun c hc => ⟨hc.1, hc.2.rx _⟩
  have h5 : Tri (fun _ => False) (At false .connected) (startTimer e.env) (fun _ => At true .connected) := by
    intro c hc
    rw [startTimer_run he.avail (hc.2.timer.2 (by rw [hc.1]; simp))]
    exact ⟨hc.1, hc.2.link, hc.2.timer, by simp, (fun h => by have := hc.1.symm.trans h; cases this), hc.2.phase⟩
  refine STri.bind (tri_on h1 no) (fun _ => ?_) p hh
  refine STri.bind (tri_on h2 no) fun _ => ?_
  refine STri.bind (tri_on h3 no) fun _ => ?_
  refine STri.bind tri_asks fun _ => ?_
  refine STri.bind (tri_on h4 no) fun _ => ?_
  exact (tri_on h5 no).weaken (fun _ h => h) fun _ _ h => ok_of .asked h

/-- When the timer of a channel in use runs out, the use ends. -/
theorem tri_timeout (he : Good e) : STri T Ok (event e .timer) (fun _ => Holds After (At true .init) .idle) := by
  rintro p ⟨s, c, l, hpair, hh⟩
  refine STri.bind (T := T) (R := fun _ => Holds (· = s) (At (c == .init) c) l) (tri_on (C' := fun _ => False) (Tri.modify ?_) no)
    (fun _ => ?_) p hh
  · refine fun x hx => ⟨hx.1, hx.2.link, hx.2.timer, fun h1 h2 => ?_, fun h => ⟨(hx.2.quiet h).1, rfl⟩, hx.2.phase⟩
    have h2 : x.st ≠ .init := h2
    rw [hx.1] at h2
    exact absurd (by simpa using h1) h2
  · refine STri.get fun p hh => ?_
    have hcs := hh.conn.1
    have hclosed : ∀ {s l}, Pair s .connected l → STri T (Holds (· = s) (At false .connected) l)
        (do onConn closeLink; onConn (logAct (.note .closed)); handleEnd e .closed; onConn Uscada.Ua.toInit)
        (fun _ => Holds After (At true .init) .idle) := fun hp => tri_over hp (by simp) he fun x h =>
      ⟨h.2.link, h.2.timer, h.2.quiet, by have := h.2.phase; rw [h.1] at this; exact phase_append this rfl⟩
    have hs : p.st = s := hh.st
    cases hpair with
    | init => rw [hcs]; exact ⟨hs ▸ .init, hh.conn, hh.life⟩
    | stuck => rw [hcs]; exact ⟨hs ▸ .stuck, hh.conn, hh.life⟩
    | dialing => rw [hcs]; exact tri_report .dialing (by simp) he p hh
    | greeting => rw [hcs]; exact tri_report .greeting (by simp) he p hh
    | asked => rw [hcs]; exact hclosed .asked p hh
    | secured => rw [hcs]; exact hclosed .secured p hh
    | kept => rw [hcs]; exact hclosed .kept p hh
    | reopened => rw [hcs]; exact hclosed .reopened p hh

theorem toHandshake_at (ha : Avail e.env) {T : Conn → Prop} :
    Tri T (At true .connecting) (toHandshake e.env) (fun _ => At true .handshake) := by
  intro c hc
  obtain ⟨hs, hi⟩ := hc
  unfold toHandshake
  rw [transit_run (by simp [hs]) (fun h => hi.timer.2 h), CM.bind_run,
    startTimer_run ha (by show c.timer = true; exact hi.timer.2 (by simp [hs]))]
  have hl := hi.link.2 (by simp [hs])
  have ht := hi.timer.2 (by simp [hs])
  have hp := hi.phase
  rw [hs] at hp
  exact ⟨rfl, by simp [hl], by simp [ht], by simp, by simp, hp⟩

theorem tri_ok (he : Good e) (v : Ev) : STri Ok Ok (event e v) (fun _ => Ok) := by
  cases v with
  | user c => exact tri_userCall he c
  | linkConnected =>
    refine STri.get fun p hp => ?_
    obtain ⟨s, c, l, hpair, hh⟩ := hp
    have hcs := hh.conn.1
    rw [hcs]
    cases hpair with
    | dialing =>
      have hsend : Tri (fun _ => False) (At true .connecting) (sendOpening .client e.env) (fun x c => x ≠ .noerror ∧ At true .connecting c) :=
        sendOpening_at
      refine STri.bind (tri_on hsend no) (fun x => ?_) p hh
      cases x with
      | noerror => exact fun p h => absurd rfl h.conn.1
      | error =>
        exact (tri_reported .dialing (by simp) he).weaken (fun _ h => ⟨h.st, h.conn.2, h.life⟩) fun _ _ h => h
      | done =>
        exact (tri_on (C' := fun _ => False) (toHandshake_at he.avail) no).weaken (fun _ h => ⟨h.st, h.conn.2, h.life⟩)
          fun _ _ h => ok_of .greeting h
    | init => exact ok_of .init hh
    | stuck => exact ok_of .stuck hh
    | greeting => exact ok_of .greeting hh
    | asked => exact ok_of .asked hh
    | secured => exact ok_of .secured hh
    | kept => exact ok_of .kept hh
    | reopened => exact ok_of .reopened hh
  | linkError =>
    rintro p ⟨s, c, l, hpair, hh⟩
    refine STri.bind (T := Ok) (P := Holds (· = s) (At true c) l) (R := fun _ => Holds (· = s) (At true c) l)
      (tri_on (C' := fun _ => False) (Tri.modify fun x hx => ?_) no) (fun _ => STri.get fun p hh => ?_) p hh
    · exact ⟨hx.1, hx.2.link, hx.2.timer, hx.2.armed, fun h => ⟨rfl, (hx.2.quiet h).2⟩, hx.2.phase⟩
    have hcs := hh.conn.1
    rw [hcs]
    cases hpair with
    | dialing =>
      refine STri.bind (T := Ok) (P := Holds (· = .connecting) (At true .connecting) .opening)
        (tri_on (C' := fun _ => False) (D := fun _ => Ended) (Tri.modify fun x hx => ended_error (by simp) hx) no) (fun _ => ?_) p hh
      refine STri.bind (tri_handleEnd he .dialing (by simp) Peer.loose_ended) fun _ => ?_
      exact (tri_on (C' := fun _ => False) (toInit_at true) no).weaken (fun _ h => h) fun _ _ h => after_ok h
    | init => exact ok_of .init hh
    | stuck => exact ok_of .stuck hh
    | greeting => exact ok_of .greeting hh
    | asked => exact ok_of .asked hh
    | secured => exact ok_of .secured hh
    | kept => exact ok_of .kept hh
    | reopened => exact ok_of .reopened hh
  | linkData =>
    refine STri.get fun p hp => ?_
    obtain ⟨s, c, l, hpair, hh⟩ := hp
    have hcs := hh.conn.1
    have hok := fun p h => ok_of hpair (p := p) h
    have hskip : STri Ok (Holds (· = s) (At true c) l) (pure () : SM Cli Unit) (fun _ => Ok) := STri.ret fun _ h => ok_of hpair h
    have hdata : STri Ok (Holds (· = s) (At true c) l) (onConn (receiveRx e.env) >>= fun x => match x with
        | .noerror => pure ()
        | .done => do
          onConn (CM.modify fun c => { c with log := c.log ++ [.note (.data c.rx.bytes)] })
          handleData e
          onConn receivePreaction
        | .error => closeAndReport e) (fun _ => Ok) ∨ c ≠ .connected := by
      by_cases hc : c = .connected
      · subst hc
        refine .inl (STri.bind (tri_on (Peer.receiveRx_holds (e := ⟨e.env, 0, 0, ⟨0⟩, ⟨0⟩, 0, []⟩)) hok) fun x => ?_)
        cases x with
        | noerror => exact hskip
        | error => exact tri_reported hpair (by simp) he
        | done =>
          refine STri.bind (R := fun _ => Holds (· = s) (At true .connected) l) (tri_on (C' := fun _ => False) (Tri.modify ?_) no)
            fun _ => ?_
          · refine fun c hc => ⟨hc.1, hc.2.link, hc.2.timer, hc.2.armed, hc.2.quiet, ?_⟩
            have := hc.2.phase
            rw [hc.1] at this ⊢
            exact phase_append this rfl
          refine STri.bind (R := fun _ => Ok) (tri_data he hpair) fun _ => ?_
          rintro p ⟨s, c, l, hpair, hh⟩
          exact ok_of hpair ⟨hh.st, Peer.loose_at.rx _ _ hh.conn, hh.life⟩
      · exact .inr hc
    cases hpair with
    | init => rw [hcs]; exact hskip p hh
    | stuck => rw [hcs]; exact hskip p hh
    | dialing => rw [hcs]; exact hskip p hh
    | asked => rw [hcs]; exact (hdata.resolve_right (by simp)) p hh
    | secured => rw [hcs]; exact (hdata.resolve_right (by simp)) p hh
    | kept => rw [hcs]; exact (hdata.resolve_right (by simp)) p hh
    | reopened => rw [hcs]; exact (hdata.resolve_right (by simp)) p hh
    | greeting =>
      rw [hcs]
      refine STri.bind (tri_on receiveHandshake_holds hok) (fun x => ?_) p hh
      cases x with
      | noerror => exact hskip
      | error => exact tri_reported .greeting (by simp) he
      | done => exact tri_connected he
  | timer => exact (tri_timeout he).weaken (fun _ h => h) fun _ _ h => after_ok h

/-! ## C58 -/

/-- `p` is the state of a channel after some history. -/
def From (es : List (KEnv × Ev)) (p : Cli) : Prop := ∃ m, (Cli.create m).run es = .ok p

theorem create_ok (m : Mem) : Ok (Cli.create m) := ok_of .init ⟨rfl, ⟨rfl, create_inv m⟩, rfl⟩

theorem run_keeps {P : Cli → Prop} {G : KEnv → Prop} (h : ∀ e v, G e → STri P P (event e v) (fun _ => P)) {es : List (KEnv × Ev)}
    (hg : ∀ x ∈ es, G x.1) {p p' : Cli} (hp : P p) (hr : p.run es = .ok p') : P p' := by
  induction es generalizing p with
  | nil => cases hr; exact hp
  | cons x xs ih =>
    obtain ⟨e, v⟩ := x
    obtain ⟨q, h1, h2⟩ := Exec.bind_eq_ok.1 hr
    refine ih (fun y hy => hg y (List.mem_cons_of_mem _ hy)) ?_ h2
    rcases settle_ok (h e v (hg _ List.mem_cons_self) p hp) h1 with h3 | ⟨_, h3⟩
    · exact h3
    · exact h3

variable {es : List (KEnv × Ev)} {p : Cli}

theorem from_ok (h : From es p) (hg : ∀ x ∈ es, Good x.1) : Ok p := by
  obtain ⟨m, hr⟩ := h
  exact run_keeps (G := Good) (fun _ v he => tri_ok he v) hg (create_ok m) hr

/-- C58: after every history the log follows the order of `Life.next`: one open request for each connection, always the same,
sent as soon as the connection is up; no answer is accepted before; each accepted `open` has at most one end.  `_partial`:
for users that do not throw when notified and while links and timers are available (`C58_throwing_user_violated`,
`C58_connect_fails_violated`). -/
theorem C58_order_partial (h : From es p) (hg : ∀ x ∈ es, Good x.1) : ∃ s, life p.log = some s := by
  obtain ⟨s, c, l, _, hh⟩ := from_ok h hg
  exact ⟨l, hh.life⟩

/-- C58: a channel in use holds a link and a running timer.  Same conditions.  The converse fails: `C58_link_kept_violated`. -/
theorem C58_in_use_partial (h : From es p) (hg : ∀ x ∈ es, Good x.1) (hl : life p.log ≠ some .idle) :
    p.conn.link = true ∧ p.conn.armed = true := by
  obtain ⟨s, c, l, hp, hh⟩ := from_ok h hg
  have hne : c ≠ .init := by
    rintro rfl
    rw [hh.life] at hl
    cases hp <;> exact hl rfl
  rw [← hh.conn.1] at hne
  exact ⟨hh.conn.2.link.2 hne, hh.conn.2.armed rfl hne⟩

/-- C58: a channel in use whose timer runs out is not in use any more, and its link and timer are released, whatever the user
does when notified (short of throwing).  Same conditions.  It need not be ready for the next `open`: `C58_stuck_violated`. -/
theorem C58_timeout_partial (h : From es p) (hg : ∀ x ∈ es, Good x.1) (he : Good e) {p' : Cli} (hn : p.next e .timer = .ok p') :
    life p'.log = some .idle ∧ p'.conn.link = false ∧ p'.conn.timer = false := by
  rcases settle_ok (tri_timeout (T := fun _ => False) he p (from_ok h hg)) hn with h1 | ⟨_, h1⟩
  · exact h1.elim
  · have hc := h1.conn.1
    refine ⟨h1.life, ?_, ?_⟩
    · cases hx : p'.conn.link with
      | false => rfl
      | true => exact absurd hc (h1.conn.2.link.1 hx)
    · cases hx : p'.conn.timer with
      | false => rfl
      | true => exact absurd hc (h1.conn.2.timer.1 hx)

end Uscada.Ua.Cli
