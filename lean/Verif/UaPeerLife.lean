import Verif.UaPeerProps
/-!
# C56: life cycle of the server secure channel of `common/ua/protocols/secure`

The channel and its connection change state together; what the user is told follows the order of `Life.next`.
-/

namespace Uscada.Ua.Peer

open SM

/-! ## Specification -/

inductive Life where
  /-- not in use -/
  | idle
  /-- `open` was accepted -/
  | opening
  /-- an open request of the client was accepted -/
  | secured
deriving DecidableEq, Repr

/-- The order a user may rely on: requests only after the client opened the channel, one end for each `open`, then nothing
until the next `open`. -/
def Life.next : Life → PAct → Option Life
  | .idle, .opening _ => some .opening
  | .opening, .issued _ => some .secured
  | .secured, .issued _ => some .secured
  | .secured, .note (.request _) => some .secured
  | .opening, .note .closed => some .idle
  | .opening, .note .error => some .idle
  | .secured, .note .closed => some .idle
  | .secured, .note .error => some .idle
  | s, .got _ => some s
  | s, .moved _ _ => some s
  | s, .sent _ _ => some s
  | _, _ => none

/-- The stage after a history, `none` if the order was broken. -/
def life (l : List PAct) : Option Life := l.foldl (fun o a => o.bind (·.next a)) (some .idle)

theorem life_snoc {l : List PAct} {a : PAct} : life (l ++ [a]) = (life l).bind (·.next a) := by
  simp [life, List.foldl_append]

theorem life_next {l : List PAct} {a : PAct} {s s' : Life} (h : life l = some s) (hn : s.next a = some s') :
    life (l ++ [a]) = some s' := by
  rw [life_snoc, h]
  exact hn

/-- The environment of an event: the reactor has timers, the system calls on them succeed, and the user does not throw when
notified. -/
structure Good (e : PEnv) : Prop where
  avail : Avail e.env
  calm : PCall.fail ∉ e.react

/-! ## Invariant -/

/-- State of the channel, state of the connection, stage. -/
inductive Pair : PSt → CSt → Life → Prop where
  | init : Pair .init .init .idle
  | connecting : Pair .connecting .handshake .opening
  | waiting : Pair .waiting .connected .opening
  | established : Pair .established .connected .secured

/-- What holds of channel, connection and log. -/
structure Holds (S : PSt → Prop) (C : Conn → Prop) (l : Life) (p : Peer) : Prop where
  st : S p.st
  conn : C p.conn
  life : life p.log = some l

def Ok (p : Peer) : Prop := ∃ s c l, Pair s c l ∧ Holds (· = s) (At true c) l p

/-! ## Operations -/

attribute [local irreducible] frame openRspEnc sendEnc Channel.openAnswer chunk

/-- Receiving and sending do not matter. -/
structure Loose (C : Conn → Prop) : Prop where
  rx : ∀ c b, C c → C { c with rx := b }
  sent : ∀ c d, C c → C { c with log := c.log ++ [.sent d] }

theorem loose_at {s : CSt} : Loose (At true s) :=
  ⟨fun _ b h => ⟨h.1, h.2.rx b⟩, fun _ d h => ⟨h.1, h.2.sent d⟩⟩

theorem loose_ended : Loose Ended :=
  ⟨fun _ _ h => ⟨h.link, h.timer, h.quiet, h.phase⟩, fun _ _ h => ⟨h.link, h.timer, h.quiet, phase_append h.phase rfl⟩⟩

variable {S : PSt → Prop} {C : Conn → Prop} {l : Life} {T : Peer → Prop} {e : PEnv}

/-- An operation of the connection. -/
theorem tri_on {α : Type} {C' : Conn → Prop} {m : CM α} {D : α → Conn → Prop} (h : Tri C' C m D) (ht : ∀ p, Holds S C' l p → T p) :
    STri T (Holds S C l) (onConn m) (fun a => Holds S (D a) l) := by
  rintro p ⟨h1, h2, h3⟩
  have h4 := h p.conn h2
  unfold onConn
  match hm : m p.conn with
  | (.ok a, c) => rw [hm] at h4; exact ⟨h1, h4, h3⟩
  | (.throws, c) => rw [hm] at h4; exact ht _ ⟨h1, h4, h3⟩
  | (.abort, c) => trivial
  | (.ub, c) => trivial

theorem tri_dec {α : Type} {d : Codec α} (hc : Loose C) (ht : ∀ p, Holds S C l p → T p) :
    STri T (Holds S C l) (decode e d) (fun _ => Holds S C l) := by
  rintro p ⟨h1, h2, h3⟩
  unfold decode
  rcases hm : d p.conn.rx with a | _ | _ | _
  · exact ⟨h1, hc.rx _ _ h2, h3⟩
  · exact ht _ ⟨h1, hc.rx _ _ h2, h3⟩
  · trivial
  · trivial

theorem tri_act {a : PAct} {l' : Life} (h : l.next a = some l') : STri T (Holds S C l) (act a) (fun _ => Holds S C l') :=
  STri.modify fun _ hp => ⟨hp.st, hp.conn, life_next hp.life h⟩

theorem sent_life (l : Life) (d : List UInt8) (ok : Bool) : l.next (.sent d ok) = some l := by cases l <;> rfl

theorem got_life (l : Life) (d : List UInt8) : l.next (.got d) = some l := by cases l <;> rfl

theorem moved_life (l : Life) (s r : UInt32) : l.next (.moved s r) = some l := by cases l <;> rfl

theorem tri_transmit (hc : Loose C) (d : List UInt8) : STri T (Holds S C l) (transmit e d) (fun _ => Holds S C l) := by
  have h1 : Tri (fun _ => False) C (Uscada.Ua.send e.env d) (fun _ => C) := fun c h => send_post d h (hc.sent _ _ h)
  refine STri.bind (tri_on h1 fun _ h => h.conn.elim) fun r => ?_
  exact STri.bind (tri_act (sent_life l d _)) fun _ => STri.ret fun _ h => h

theorem tri_frame {c : Codec Unit} {x y z : UInt8} {id : UInt32} {body : List UInt8}
    (hw : Writes c (wire (⟨(x, y, z), 0x46, 0, id⟩ : UaMessageHeader) ++ body)) {P : Peer → Prop} :
    STri T P (lift (frame garbage c)) (fun _ => P) := by
  refine STri.lift (fun _ _ _ h => h) fun _ h _ => ?_
  rcases frame_chunk hw with ⟨h1, _⟩ | h1 <;> rw [h1] at h <;> cases h

theorem tri_userSend (hc : Loose C) (data : List UInt8) : STri T (Holds S C l) (userSend e data) (fun _ => Holds S C l) := by
  refine STri.get fun p hp => ?_
  refine STri.bind (R := fun _ => Holds S C l) (STri.modify fun _ h => ⟨h.st, h.conn, h.life⟩) (fun _ => ?_) p hp
  refine STri.bind (tri_frame (send_writes _ _ _ _ _)) fun d => ?_
  exact STri.bind (tri_transmit hc d) fun _ => STri.ret fun _ h => h

theorem tri_react (hs : ¬ S .init) (hc : Loose C) {xs : List PCall} (hx : PCall.fail ∉ xs) :
    STri T (Holds S C l) (calls e xs) (fun _ => Holds S C l) := by
  induction xs with
  | nil => exact STri.ret fun _ h => h
  | cons x xs ih =>
    refine STri.bind ?_ fun _ => ih fun h => hx (List.mem_cons_of_mem _ h)
    cases x with
    | «open» =>
      refine STri.get fun p hp => ?_
      cases h : p.st with
      | init => exact absurd (h ▸ hp.st) hs
      | _ => exact hp
    | send data => exact tri_userSend hc data
    | consume n =>
      intro p hp
      exact ⟨hp.st, hc.rx _ _ hp.conn, hp.life⟩
    | fail => exact absurd List.mem_cons_self hx

theorem tri_note (hs : ¬ S .init) (hc : Loose C) (he : Good e) {n : PNote} {l' : Life} (h : l.next (.note n) = some l') :
    STri T (Holds S C l) (notify e n) (fun _ => Holds S C l') :=
  STri.bind (tri_act h) fun _ => tri_react hs hc he.calm

theorem final_life {n : PNote} (hn : Final n) (hl : l ≠ .idle) : l.next (.note n) = some .idle := by
  rcases hn with h | h <;> subst h <;> cases l <;> first | rfl | exact absurd rfl hl

theorem ok_init {p : Peer} (h : Holds (fun _ => True) (At true .init) .idle p) : Ok { p with st := .init } :=
  ⟨_, _, _, .init, rfl, h.conn, h.life⟩

theorem userClose_at {T : Conn → Prop} : Tri T (At true .connected) userClose (fun _ => At true .init) := by
  intro c hc
  have h := userClose_inv true (T := T) c hc.2
  rw [userClose_run c hc.2.link hc.2.timer, if_pos hc.1] at h ⊢
  exact ⟨rfl, h⟩

theorem tri_end (hs : ¬ S .init) (he : Good e) {n : PNote} (hn : Final n) (hl : l ≠ .idle) :
    STri T (Holds S (At true .connected) l) (finish e n) (fun _ => Ok) := by
  refine STri.bind (tri_note hs loose_at he (final_life hn hl)) fun _ => ?_
  refine STri.bind (tri_on (C' := fun _ => False) userClose_at fun _ h => h.conn.elim) fun _ => ?_
  exact STri.modify fun p h => ok_init ⟨trivial, h.conn, h.life⟩

/-! ## Messages -/

theorem ok_of {s : PSt} {c : CSt} (hp : Pair s c l) {p : Peer} (h : Holds (· = s) (At true c) l p) : Ok p := ⟨_, _, _, hp, h⟩

theorem tri_opened {s : PSt} (hp : Pair s .connected l) (he : Good e) :
    STri Ok (Holds (· = s) (At true .connected) l) (onOpenReq e) (fun _ => Ok) := by
  have hs : s ≠ .init := by cases hp <;> simp
  have hok := fun p h => ok_of hp (p := p) h
  unfold onOpenReq receiveOpen
  simp only [SM.assoc]
  refine STri.bind (tri_dec loose_at hok) fun _ => ?_
  refine STri.bind (tri_dec loose_at hok) fun _ => ?_
  refine STri.bind (tri_dec loose_at hok) fun q => ?_
  refine STri.bind (R := fun _ => Holds (· = s) (At true .connected) l) (STri.modify fun _ h => ⟨h.st, h.conn, h.life⟩) fun _ => ?_
  refine STri.bind (tri_act (moved_life l _ _)) fun _ => ?_
  refine STri.bind (tri_dec loose_at hok) fun r => ?_
  refine STri.bind (R := fun _ => Holds (· = s) (At true .connected) l) (STri.modify fun _ h => ⟨h.st, h.conn, h.life⟩) fun _ => ?_
  unfold sendOpenRsp
  simp only [SM.assoc]
  refine STri.bind (R := fun _ => Holds (· = s) (At true .connected) l) (STri.modify fun _ h => ⟨h.st, h.conn, h.life⟩) fun _ => ?_
  refine STri.bind (tri_act (l' := .secured) (by cases hp <;> rfl)) fun _ => ?_
  refine STri.get fun p hp' => ?_
  refine STri.bind (R := fun _ => Holds (· = s) (At true .connected) .secured) (STri.modify fun _ h => ⟨h.st, h.conn, h.life⟩) (fun _ => ?_) p hp'
  refine STri.bind (tri_frame (open_writes _ _ _ _ _ _)) fun d => ?_
  refine STri.bind (tri_transmit loose_at d) fun x => ?_
  have hno : STri Ok (Holds (· = s) (At true .connected) .secured) (finish e .error) (fun _ => Ok) :=
    tri_end (fun h => hs h.symm) he (.inr rfl) (by simp)
  cases x with
  | done => exact STri.modify fun p h => ok_of .established ⟨rfl, h.conn, h.life⟩
  | noerror => exact hno
  | error => exact hno

theorem tri_guard {s : PSt} {c : CSt} : STri T (Holds (· = s) (At true c) l) (receiveGuarded e) (fun _ => Holds (· = s) (At true c) l) := by
  intro p h
  have hr : ∀ b, Holds (· = s) (At true c) l (withRx p b) := fun b => ⟨h.st, loose_at.rx _ _ h.conn, h.life⟩
  rcases guarded_run e p with h1 | h1
  · rw [h1]
    split
    · exact hr _
    · split
      · exact hr _
      · exact hr _
  · exact spost_ub h1.1

theorem tri_closed (he : Good e) : STri Ok (Holds (· = .established) (At true .connected) .secured) (onCloseReq e) (fun _ => Ok) := by
  refine STri.bind tri_guard fun g => ?_
  cases g with
  | none => exact tri_end (by simp) he (.inr rfl) (by simp)
  | some q => exact tri_end (by simp) he (.inl rfl) (by simp)

theorem tri_message (he : Good e) : STri Ok (Holds (· = .established) (At true .connected) .secured) (onMessage e) (fun _ => Ok) := by
  refine STri.bind tri_guard fun g => ?_
  cases g with
  | none => exact tri_end (by simp) he (.inr rfl) (by simp)
  | some q =>
    refine STri.bind (R := fun _ => Holds (· = .established) (At true .connected) .secured)
      (STri.modify fun _ h => ⟨h.st, h.conn, h.life⟩) fun _ => ?_
    refine STri.get fun p hp => ?_
    exact (tri_note (l' := .secured) (by simp) loose_at he rfl).weaken (fun _ h => h) (fun _ _ h => ok_of .established h) p hp

theorem tri_data (he : Good e) : STri Ok Ok (handleData e) (fun _ => Ok) := by
  refine STri.get fun p hp => ?_
  obtain ⟨s, c, l, hpair, hh⟩ := hp
  refine STri.bind (R := fun _ => Holds (· = s) (At true c) l) (T := Ok) (P := Holds (· = s) (At true c) l)
    (tri_act (got_life l _)) (fun _ => ?_) p hh
  have hskip : STri Ok (Holds (· = s) (At true c) l) (pure () : SM Peer Unit) (fun _ => Ok) := STri.ret fun _ h => ok_of hpair h
  have hst := hh.st
  by_cases ho : typeIs p.conn.rx 0x4F 0x50 0x4E = true
  · rw [if_pos ho]
    cases hpair with
    | init => rw [hst]; exact hskip
    | connecting => rw [hst]; exact hskip
    | waiting => rw [hst]; exact tri_opened .waiting he
    | established => rw [hst]; exact tri_opened .established he
  · rw [if_neg ho]
    by_cases hc : typeIs p.conn.rx 0x43 0x4C 0x4F = true
    · rw [if_pos hc]
      cases hpair with
      | established => rw [hst]; exact tri_closed he
      | _ => rw [hst]; exact hskip
    · rw [if_neg hc]
      by_cases hm : typeIs p.conn.rx 0x4D 0x53 0x47 = true
      · rw [if_pos hm]
        cases hpair with
        | established => rw [hst]; exact tri_message he
        | _ => rw [hst]; exact hskip
      · rw [if_neg hm]
        exact hskip

/-! ## Events -/

theorem userAccept_at (ha : Avail e.env) {T : Conn → Prop} : Tri T (At true .init) (userAccept e.env) (fun _ => At true .handshake) := by
  intro c hc
  have h := userAccept_inv ha true (T := T) c hc.2
  have hst : ∀ x y, userAccept e.env c = (x, y) → x = .ok () → y.st = .handshake := by
    intro x y
    unfold userAccept
    simp only [CM.bind_run, CM.get, CM.andThen, hc.1, setLink, allocTimer, ha.timer, if_true, CM.modify, logAct]
    unfold toHandshake
    rw [transit_run (by simp) (by simp)]
    simp only [CM.bind_run, startTimer, receivePreaction, CM.modify, ha.starts, if_true, CM.andThen]
    rintro h1 _
    injection h1 with _ h1
    rw [← h1]
  match hm : userAccept e.env c with
  | (.ok a, c') => rw [hm] at h; exact ⟨hst _ _ hm rfl, h⟩
  | (.throws, c') => rw [hm] at h; exact h
  | (.abort, c') => trivial
  | (.ub, c') => trivial

theorem tri_userOpen (he : Good e) : STri Ok Ok (userOpen e) (fun _ => Ok) := by
  refine STri.get fun p hp => ?_
  obtain ⟨s, c, l, hpair, hh⟩ := hp
  have hst := hh.st
  cases hpair with
  | init =>
    rw [hst]
    refine STri.bind (T := Ok) (R := fun _ => Holds (· = .init) (At true .init) .idle)
      (STri.modify fun _ h => ⟨h.st, h.conn, h.life⟩) (fun _ => ?_) p hh
    refine STri.bind (tri_act rfl) fun _ => ?_
    refine STri.bind (tri_on (C' := fun _ => False) (userAccept_at he.avail) fun _ h => h.conn.elim) fun _ => ?_
    exact STri.modify fun p h => ok_of .connecting ⟨rfl, h.conn, h.life⟩
  | connecting => rw [hst]; exact ok_of .connecting hh
  | waiting => rw [hst]; exact ok_of .waiting hh
  | established => rw [hst]; exact ok_of .established hh

theorem tri_userCall (he : Good e) (x : PCall) : STri Ok Ok (call e x) (fun _ => Ok) := by
  cases x with
  | «open» => exact tri_userOpen he
  | send data =>
    rintro p ⟨s, c, l, hpair, hh⟩
    exact (tri_userSend loose_at data).weaken (fun _ h => h) (fun _ _ h => ok_of hpair h) p hh
  | consume n =>
    rintro p ⟨s, c, l, hpair, hh⟩
    exact ok_of hpair ⟨hh.st, loose_at.rx _ _ hh.conn, hh.life⟩
  | fail => exact STri.throws fun _ h => h

/-- The end of a connection. -/
theorem tri_over {s : PSt} {c : CSt} (hp : Pair s c l) (hc : c ≠ .init) (he : Good e) {n : PNote} (hn : Final n) {a : Act}
    {k : Bool} (ha : ∀ x, At k c x → Ended { x with log := x.log ++ [a] }) :
    STri T (Holds (· = s) (At k c) l) (do onConn closeLink; onConn (logAct a); handleEnd e n; onConn Uscada.Ua.toInit)
      (fun _ => Holds (· = .init) (At true .init) .idle) := by
  have hs : s ≠ .init := by cases hp <;> simp_all
  have hl : l ≠ .idle := by cases hp <;> simp_all
  refine STri.bind (tri_on (C' := fun _ => False) (closeLink_at hc) fun _ h => h.conn.elim) fun _ => ?_
  refine STri.bind (tri_on (C' := fun _ => False) (D := fun _ => Ended) (Tri.modify ha) fun _ h => h.conn.elim) fun _ => ?_
  have h1 : STri T (Holds (· = s) Ended l) (handleEnd e n) (fun _ => Holds (· = .init) Ended .idle) := by
    refine STri.get fun p hh => ?_
    have h2 : STri T (Holds (· = s) Ended l) (notify e n >>= fun _ => toInit) (fun _ => Holds (· = .init) Ended .idle) :=
      STri.bind (tri_note (fun h => hs h.symm) loose_ended he (final_life hn hl)) fun _ =>
        STri.modify fun p h => ⟨rfl, h.conn, h.life⟩
    cases hx : p.st with
    | init => exact absurd (hh.st.symm.trans hx) hs
    | _ => exact h2 p hh
  refine STri.bind h1 fun _ => ?_
  exact tri_on (C' := fun _ => False) (toInit_at true) fun _ h => h.conn.elim

theorem tri_report {s : PSt} {c : CSt} (hp : Pair s c l) (hc : c ≠ .init) (he : Good e) {k : Bool} :
    STri T (Holds (· = s) (At k c) l) (closeAndReport e) (fun _ => Holds (· = .init) (At true .init) .idle) :=
  tri_over hp hc he (.inr rfl) fun _ h => ended_error hc h

theorem tri_reported {s : PSt} {c : CSt} (hp : Pair s c l) (hc : c ≠ .init) (he : Good e) :
    STri T (Holds (· = s) (At true c) l) (closeAndReport e) (fun _ => Ok) :=
  (tri_report hp hc he).weaken (fun _ h => h) fun _ _ h => ok_of .init h

theorem receiveRx_holds {s : CSt} : Tri (At true s) (At true s) (receiveRx e.env) (fun _ => At true s) := by
  intro c hc
  unfold receiveRx
  split
  · split
    · exact ⟨hc.1, hc.2.rx _⟩
    · exact hc
    · exact trivial
    · exact trivial
  · split
    · exact hc
    · exact trivial

theorem receiveHandshake_holds {s : CSt} :
    Tri (At true s) (At true s) (receiveHandshake .server e.env) (fun _ => At true s) := by
  refine Tri.bind receiveRx_holds fun x => ?_
  cases x with
  | noerror => exact Tri.ret fun _ h => h
  | error => exact Tri.ret fun _ h => h
  | done =>
    refine Tri.get fun c hc => ?_
    by_cases h : isHandshake .server c.rx = true
    · rw [if_pos h]
      refine Tri.bind (R := fun _ => At true s) (Q := fun _ => At true s) ?_ (fun _ => Tri.ret fun _ h => h) c hc
      intro c hc
      unfold decodeHandshake
      split
      · exact ⟨hc.1, hc.2.rx _⟩
      · exact ⟨hc.1, hc.2.rx _⟩
      · exact trivial
      · exact trivial
    · rw [if_neg h]
      exact hc

theorem tri_connected (he : Good e) : STri T (Holds (· = .connecting) (At true .handshake) .opening) (toConnected e) (fun _ => Ok) := by
  refine STri.get fun p hh => ?_
  have hcs := hh.conn.1
  rw [if_neg (by rw [hcs]; simp), hcs]
  have h1 : Tri (fun _ => False) (At true .handshake) (exit .handshake) (fun _ => At false .handshake) := by
    intro c hc
    show Post _ _ (stopTimer c)
    rw [stopTimer_run (hc.2.timer.2 (by rw [hc.1]; simp))]
    exact ⟨hc.1, hc.2.link, hc.2.timer, by simp, (fun h => by have := hc.1.symm.trans h; cases this), hc.2.phase⟩
  have h2 : Tri (fun _ => False) (At false .handshake) (CM.modify fun c => { c with st := .connected })
      (fun _ c => c.st = .connected ∧ c.link = true ∧ c.timer = true ∧ phase c.log = some .trying) := by
    refine Tri.modify fun c hc => ⟨rfl, hc.2.link.2 (by rw [hc.1]; simp), hc.2.timer.2 (by rw [hc.1]; simp), ?_⟩
    have := hc.2.phase
    rw [hc.1] at this
    exact this
  have h3 : Tri (fun _ => False) (fun c => c.st = .connected ∧ c.link = true ∧ c.timer = true ∧ phase c.log = some .trying)
      (logAct (.note .connected)) (fun _ => At false .connected) := by
    refine Tri.modify fun c ⟨a, b, d, f⟩ => ⟨a, by simp [a, b], by simp [a, d], by simp, fun h => ?_, ?_⟩
    · have h : c.st = .init := h
      rw [a] at h
      cases h
    · rw [a]
      exact phase_append f rfl
  have h4 : Tri (fun _ => False) (At false .connected) receivePreaction (fun _ => At false .connected) :=
    Tri.modify fun c hc => ⟨hc.1, hc.2.rx _⟩
  have h5 : Tri (fun _ => False) (At false .connected) (startTimer e.env) (fun _ => At true .connected) := by
    intro c hc
    rw [startTimer_run he.avail (hc.2.timer.2 (by rw [hc.1]; simp))]
    exact ⟨hc.1, hc.2.link, hc.2.timer, by simp, (fun h => by have := hc.1.symm.trans h; cases this), hc.2.phase⟩
  have no : ∀ {S : PSt → Prop} {l : Life} p, Holds S (fun _ => False) l p → T p := fun _ h => h.conn.elim
  refine STri.bind (tri_on h1 no) (fun _ => ?_) p hh
  refine STri.bind (tri_on h2 no) fun _ => ?_
  refine STri.bind (tri_on h3 no) fun _ => ?_
  refine STri.bind (R := fun _ => Holds (· = .waiting) (At false .connected) .opening) ?_ fun _ => ?_
  · refine STri.get fun p hh => ?_
    rw [hh.st]
    exact ⟨rfl, hh.conn, hh.life⟩
  refine STri.bind (tri_on h4 no) fun _ => ?_
  exact (tri_on h5 no).weaken (fun _ h => h) fun _ _ h => ok_of .waiting h

/-- When the timer of a channel in use runs out, the channel ends. -/
theorem tri_timeout (he : Good e) : STri T Ok (event e .timer) (fun _ => Holds (· = .init) (At true .init) .idle) := by
  rintro p ⟨s, c, l, hpair, hh⟩
  refine STri.bind (T := T) (R := fun _ => Holds (· = s) (At (c == .init) c) l) (tri_on (C' := fun _ => False) (Tri.modify ?_)
    fun _ h => h.conn.elim) (fun _ => ?_) p hh
  · refine fun x hx => ⟨hx.1, hx.2.link, hx.2.timer, fun h1 h2 => ?_, fun h => ⟨(hx.2.quiet h).1, rfl⟩, hx.2.phase⟩
    have h2 : x.st ≠ .init := h2
    rw [hx.1] at h2
    exact absurd (by simpa using h1) h2
  · refine STri.get fun p hh => ?_
    have hcs := hh.conn.1
    have hclosed : ∀ {s l}, Pair s .connected l → STri T (Holds (· = s) (At false .connected) l)
        (do onConn closeLink; onConn (logAct (.note .closed)); handleEnd e .closed; onConn Uscada.Ua.toInit)
        (fun _ => Holds (· = .init) (At true .init) .idle) := fun hp => tri_over hp (by simp) he (.inl rfl) fun x h =>
      ⟨h.2.link, h.2.timer, h.2.quiet, by have := h.2.phase; rw [h.1] at this; exact phase_append this rfl⟩
    cases hpair with
    | init => rw [hcs]; exact hh
    | connecting => rw [hcs]; exact tri_report .connecting (by simp) he p hh
    | waiting => rw [hcs]; exact hclosed .waiting p hh
    | established => rw [hcs]; exact hclosed .established p hh

theorem tri_ok (he : Good e) (v : Ev) : STri Ok Ok (event e v) (fun _ => Ok) := by
  cases v with
  | user c => exact tri_userCall he c
  | linkError =>
    rintro p ⟨s, c, l, hpair, hh⟩
    refine ok_of hpair ⟨hh.st, ⟨hh.conn.1, hh.conn.2.link, hh.conn.2.timer, hh.conn.2.armed, fun h => ⟨rfl, ?_⟩, hh.conn.2.phase⟩, hh.life⟩
    exact (hh.conn.2.quiet h).2
  | linkData =>
    refine STri.get fun p hp => ?_
    obtain ⟨s, c, l, hpair, hh⟩ := hp
    have hcs := hh.conn.1
    have hok := fun p h => ok_of hpair (p := p) h
    have hskip : STri Ok (Holds (· = s) (At true c) l) (pure () : SM Peer Unit) (fun _ => Ok) := STri.ret fun _ h => ok_of hpair h
    have hdata : STri Ok (Holds (· = s) (At true c) l) (onConn (receiveRx e.env) >>= fun x => match x with
        | .noerror => pure ()
        | .done => do
          onConn (CM.modify fun c => { c with log := c.log ++ [.note (.data c.rx.bytes)] })
          handleData e
          onConn receivePreaction
        | .error => closeAndReport e) (fun _ => Ok) ∨ c ≠ .connected := by
      by_cases hc : c = .connected
      · subst hc
        refine .inl (STri.bind (tri_on receiveRx_holds hok) fun x => ?_)
        cases x with
        | noerror => exact hskip
        | error => exact tri_reported hpair (by simp) he
        | done =>
          refine STri.bind (R := fun _ => Holds (· = s) (At true .connected) l) (tri_on (C' := fun _ => False) (Tri.modify ?_)
            fun _ h => h.conn.elim) fun _ => ?_
          · refine fun c hc => ⟨hc.1, hc.2.link, hc.2.timer, hc.2.armed, hc.2.quiet, ?_⟩
            have := hc.2.phase
            rw [hc.1] at this ⊢
            exact phase_append this rfl
          refine STri.bind (R := fun _ => Ok) ((tri_data he).weaken (fun _ h => ok_of hpair h) fun _ _ h => h) fun _ => ?_
          rintro p ⟨s, c, l, hpair, hh⟩
          exact ok_of hpair ⟨hh.st, loose_at.rx _ _ hh.conn, hh.life⟩
      · exact .inr hc
    cases hpair with
    | init => rw [hcs]; exact hskip p hh
    | waiting => rw [hcs]; exact (hdata.resolve_right (by simp)) p hh
    | established => rw [hcs]; exact (hdata.resolve_right (by simp)) p hh
    | connecting =>
      rw [hcs]
      refine STri.bind (tri_on receiveHandshake_holds hok) (fun x => ?_) p hh
      cases x with
      | noerror => exact hskip
      | error => exact tri_reported .connecting (by simp) he
      | done =>
        have hsend : Tri (fun _ => False) (At true .handshake) (sendAcknowledge e.env) (fun _ => At true .handshake) :=
          sendAcknowledge_at.weaken (fun _ h => h) fun _ _ h => h.2
        refine STri.bind (tri_on hsend fun _ h => h.conn.elim) fun y => ?_
        cases y with
        | noerror => exact hskip
        | error => exact tri_reported .connecting (by simp) he
        | done => exact tri_connected he
  | timer => exact (tri_timeout he).weaken (fun _ h => h) fun _ _ h => ok_of .init h

/-! ## C56 -/

theorem create_ok (m : Mem) (id rxSeq reqId lifetime token : UInt32) : Ok (Peer.create m id rxSeq reqId lifetime token) :=
  ok_of .init ⟨rfl, ⟨rfl, create_inv m⟩, rfl⟩

variable {es : List (PEnv × Ev)} {p : Peer}

theorem from_ok (h : From es p) (hg : ∀ x ∈ es, Good x.1) : Ok p := by
  obtain ⟨m, id, rxSeq, reqId, lifetime, token, hr⟩ := h
  exact run_keeps (G := Good) (fun _ v he => tri_ok he v) hg (create_ok ..) hr

/-- C56: after every history the log follows the order of `Life.next`: requests are notified only after an open request of the
client was accepted, and every accepted `open` is followed by exactly one end before the next one is accepted.  `_partial`:
for users that do not throw when notified and while timers are available (`C56_throwing_user_violated`,
`C56_timer_exhausted_violated`). -/
theorem C56_order_partial (h : From es p) (hg : ∀ x ∈ es, Good x.1) : ∃ s, life p.log = some s := by
  obtain ⟨s, c, l, _, hh⟩ := from_ok h hg
  exact ⟨l, hh.life⟩

/-- C56: a link and a running timer are held exactly while the channel is in use.  Same conditions. -/
theorem C56_resources_partial (h : From es p) (hg : ∀ x ∈ es, Good x.1) :
    (p.conn.link = true ↔ life p.log ≠ some .idle) ∧ (p.conn.armed = true ↔ life p.log ≠ some .idle) := by
  obtain ⟨s, c, l, hp, hh⟩ := from_ok h hg
  have h1 := hh.conn.1
  have hi := hh.conn.2
  have hl := hh.life
  have hne : c ≠ .init ↔ life p.log ≠ some .idle := by
    rw [hl]
    cases hp <;> simp
  rw [← hne, ← h1]
  refine ⟨hi.link, fun ha hs => ?_, hi.armed rfl⟩
  have := (hi.quiet hs).2
  rw [ha] at this
  cases this

/-- C56: a channel in use whose timer runs out ends: it is idle and holds no link afterwards, whatever the user does when
notified (short of throwing).  Same conditions. -/
theorem C56_timeout_partial (h : From es p) (hg : ∀ x ∈ es, Good x.1) (he : Good e) {p' : Peer} (hn : p.next e .timer = .ok p') :
    life p'.log = some .idle ∧ p'.st = .init ∧ p'.conn.link = false ∧ p'.conn.timer = false := by
  rcases settle_ok (tri_timeout (T := fun _ => False) he p (from_ok h hg)) hn with h1 | ⟨_, h1⟩
  · exact h1.elim
  · have hc := h1.conn.1
    refine ⟨h1.life, h1.st, ?_, ?_⟩
    · cases hx : p'.conn.link with
      | false => rfl
      | true => exact absurd hc (h1.conn.2.link.1 hx)
    · cases hx : p'.conn.timer with
      | false => rfl
      | true => exact absurd hc (h1.conn.2.timer.1 hx)

end Uscada.Ua.Peer
