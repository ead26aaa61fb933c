import Verif.UaConnection
/-!
# C30, C31, C32 for the connections of common/ua/protocols

The lemmas use a small program logic: `Tri T P m Q` says that `m`, started in a state satisfying `P`, ends normally
in a state satisfying `Q` or throws in a state satisfying `T` (or terminates, or is undefined; the theorems about
histories speak about histories without undefined behaviour).
-/

namespace Uscada.Ua

open CM
open Modbus (Rx)

/-- What holds after an operation. -/
def Post {α : Type} (T : Conn → Prop) (Q : α → Conn → Prop) : Exec α × Conn → Prop
  | (.ok a, c) => Q a c
  | (.throws, c) => T c
  | (.abort, _) => True
  | (.ub, _) => True

def Tri {α : Type} (T P : Conn → Prop) (m : CM α) (Q : α → Conn → Prop) : Prop := ∀ c, P c → Post T Q (m c)

namespace Tri

variable {α β : Type} {T P : Conn → Prop}

theorem bind {m : CM α} {f : α → CM β} {R : α → Conn → Prop} {Q : β → Conn → Prop}
    (h1 : Tri T P m R) (h2 : ∀ a, Tri T (R a) (f a) Q) : Tri T P (m >>= f) Q := by
  intro c hc
  have h := h1 c hc
  rw [bind_run]
  match hm : m c with
  | (.ok a, c') => rw [hm] at h; exact h2 a c' h
  | (.throws, c') => rw [hm] at h; exact h
  | (.abort, c') => exact trivial
  | (.ub, c') => exact trivial

theorem ret {Q : α → Conn → Prop} {a : α} (h : ∀ c, P c → Q a c) : Tri T P (pure a : CM α) Q := h

theorem modify {f : Conn → Conn} {Q : Unit → Conn → Prop} (h : ∀ c, P c → Q () (f c)) :
    Tri T P (CM.modify f) Q := h

theorem weaken {P' : Conn → Prop} {m : CM α} {Q Q' : α → Conn → Prop} (h : Tri T P m Q) (hp : ∀ c, P' c → P c)
    (hq : ∀ a c, Q a c → Q' a c) : Tri T P' m Q' := by
  intro c hc
  have h := h c (hp c hc)
  match hm : m c with
  | (.ok a, c') => rw [hm] at h; exact hq a c' h
  | (.throws, c') => rw [hm] at h; exact h
  | (.abort, c') => exact trivial
  | (.ub, c') => exact trivial

/-- use the current state -/
theorem get {f : Conn → CM β} {Q : β → Conn → Prop} (h : ∀ c, P c → Post T Q (f c c)) :
    Tri T P (CM.get >>= f) Q := by
  intro c hc
  exact h c hc

end Tri

/-! ## Specification of the notifications -/

inductive Phase where
  /-- no attempt is going on -/
  | idle
  /-- an attempt was begun, its outcome is not known -/
  | trying
  /-- success was reported -/
  | up
deriving DecidableEq, Repr

/-- The order of things a user may rely on: an attempt ends with one success or one error; data only after success;
after success one terminal notification or the user's own close; then nothing until the next attempt (a close called
from inside the terminal notification is allowed). -/
def Phase.next : Phase → Act → Option Phase
  | p, .sent _ => some p
  | .idle, .attempt => some .trying
  | .idle, .closing => some .idle
  | .trying, .note .connected => some .up
  | .trying, .note .error => some .idle
  | .up, .note (.data _) => some .up
  | .up, .note .error => some .idle
  | .up, .note .closed => some .idle
  | .up, .closing => some .idle
  | _, _ => none

/-- The phase after a history; `none` when the order was broken. -/
def phaseFrom (p : Option Phase) : List Act → Option Phase
  | [] => p
  | a :: rest => phaseFrom (p.bind (·.next a)) rest

def phase (l : List Act) : Option Phase := phaseFrom (some .idle) l

theorem phaseFrom_append (l : List Act) (p : Option Phase) (a : Act) :
    phaseFrom p (l ++ [a]) = (phaseFrom p l).bind (·.next a) := by
  induction l generalizing p with
  | nil => rfl
  | cons x xs ih => exact ih _

theorem phase_append {l : List Act} {p q : Phase} {a : Act} (h : phase l = some p) (hn : p.next a = some q) :
    phase (l ++ [a]) = some q := by
  unfold phase at *
  rw [phaseFrom_append, h]
  exact hn

/-- The phase that belongs to a state of the connection. -/
def CSt.phase : CSt → Phase
  | .init => .idle
  | .connecting => .trying
  | .handshake => .trying
  | .connected => .up

/-! ## The invariant -/

/-- `k = true`: the timer is running in every state but the idle one. -/
structure Inv (k : Bool) (c : Conn) : Prop where
  link : c.link = true ↔ c.st ≠ .init
  timer : c.timer = true ↔ c.st ≠ .init
  armed : k = true → c.st ≠ .init → c.armed = true
  quiet : c.st = .init → c.opened = false ∧ c.armed = false
  phase : Ua.phase c.log = some c.st.phase

/-- After the terminal notification, before the state is left. -/
structure Ended (c : Conn) : Prop where
  link : c.link = true ↔ c.st ≠ .init
  timer : c.timer = true ↔ c.st ≠ .init
  quiet : c.st = .init → c.opened = false ∧ c.armed = false
  phase : Ua.phase c.log = some .idle

/-- The reactor has free entries and the operating system calls succeed. -/
structure Avail (e : Env) : Prop where
  link : e.linkFree = true
  timer : e.timerFree = true
  connects : e.connects = true
  starts : e.starts = true

/-- Calls that neither begin an attempt nor throw. -/
def Call.calm : Call → Bool
  | .close => true
  | .send _ => true
  | .consume _ => true
  | _ => false

/-- The user does not reconnect or throw while being told that a connection ended, and does not throw while being
told that it was established. -/
structure Tame (e : Env) : Prop where
  closed : ∀ x ∈ e.onClosed, x.calm = true
  error : ∀ x ∈ e.onError, x.calm = true
  connected : Call.fail ∉ e.onConnected

variable {r : Role} {e : Env}

theorem stopTimer_run {c : Conn} (h : c.timer = true) : stopTimer c = (.ok (), { c with armed := false }) := by
  simp only [stopTimer, h, if_true]

theorem startTimer_run {c : Conn} (ha : Avail e) (h : c.timer = true) :
    startTimer e c = (.ok (), { c with armed := true }) := by
  simp only [startTimer, h, ha.starts, if_true]

theorem closeLink_run {c : Conn} (h : c.link = true) : closeLink c = (.ok (), { c with opened := false }) := by
  simp only [closeLink, h, if_true]

theorem connectLink_run {c : Conn} (ha : Avail e) (h : c.link = true) :
    connectLink e c = (.ok (), { c with opened := true }) := by
  simp only [connectLink, h, ha.connects, if_true]

theorem toInit_run (c : Conn) (h : c.timer = true ↔ c.st ≠ .init) : toInit c = (.ok (),
    if c.st = .init then c
    else { c with st := .init, link := false, opened := false, timer := false, armed := false }) := by
  unfold toInit transit
  simp only [bind_run, CM.get, andThen]
  by_cases hs : c.st = .init
  · rw [if_pos hs, if_pos hs]
    rfl
  · rw [if_neg hs, if_neg hs]
    have hx : exit c.st = stopTimer := by
      cases hc : c.st with
      | init => exact absurd hc hs
      | _ => rfl
    rw [hx]
    simp only [bind_run, stopTimer_run (h.2 hs), andThen, CM.modify, releaseResources]

theorem toInit_ended (k : Bool) {T : Conn → Prop} : Tri T Ended toInit (fun _ => Inv k) := by
  intro c hc
  rw [toInit_run c hc.timer]
  show Inv k (if c.st = .init then c else _)
  by_cases hs : c.st = .init
  · rw [if_pos hs]
    exact ⟨hc.link, hc.timer, fun _ h => absurd hs h, hc.quiet, by rw [hs]; exact hc.phase⟩
  · rw [if_neg hs]
    exact ⟨by simp, by simp, by simp, by simp, hc.phase⟩

/-- `transit` to a state that is not the current one, from a state with its timer. -/
theorem transit_run {c : Conn} {target : CSt} {enter : CM Unit} (hne : c.st ≠ target)
    (ht : c.st ≠ .init → c.timer = true) : transit target enter c =
      enter { c with st := target, armed := if c.st = .init then c.armed else false } := by
  unfold transit
  simp only [bind_run, CM.get, andThen]
  rw [if_neg hne]
  by_cases hs : c.st = .init
  · have hx : exit c.st = pure () := by rw [hs]; rfl
    rw [hx, if_pos hs]
    rfl
  · have hx : exit c.st = stopTimer := by
      cases hc : c.st with
      | init => exact absurd hc hs
      | _ => rfl
    rw [hx, if_neg hs]
    simp only [bind_run, stopTimer_run (ht hs), andThen, CM.modify]

/-! ## User calls keep the invariant -/

theorem userConnect_inv (ha : Avail e) (k : Bool) {T : Conn → Prop} : Tri T (Inv k) (userConnect e) (fun _ => Inv k) := by
  intro c hc
  unfold userConnect
  simp only [bind_run, CM.get, andThen]
  match hs : c.st with
  | .init =>
    simp only [allocLink, allocTimer, ha.link, ha.timer, if_true, bind_run, CM.modify, andThen, logAct]
    unfold toConnecting
    rw [transit_run (by simp [hs]) (by simp)]
    simp only [bind_run, connectLink, startTimer, ha.connects, ha.starts, if_true, andThen]
    have hp := hc.phase
    rw [hs] at hp
    exact ⟨by simp, by simp, by simp, by simp, phase_append hp rfl⟩
  | .connecting => exact hc
  | .handshake => exact hc
  | .connected => exact hc

theorem userAccept_inv (ha : Avail e) (k : Bool) {T : Conn → Prop} : Tri T (Inv k) (userAccept e) (fun _ => Inv k) := by
  intro c hc
  unfold userAccept
  simp only [bind_run, CM.get, andThen]
  match hs : c.st with
  | .init =>
    simp only [setLink, allocTimer, ha.timer, if_true, bind_run, CM.modify, andThen, logAct]
    unfold toHandshake
    rw [transit_run (by simp [hs]) (by simp)]
    simp only [bind_run, startTimer, receivePreaction, CM.modify, ha.starts, if_true, andThen]
    have hp := hc.phase
    rw [hs] at hp
    exact ⟨by simp, by simp, by simp, by simp, phase_append hp rfl⟩
  | .connecting => exact hc
  | .handshake => exact hc
  | .connected => exact hc

theorem userClose_run (c : Conn) (hl : c.link = true ↔ c.st ≠ .init) (ht : c.timer = true ↔ c.st ≠ .init) :
    userClose c = (.ok (), if c.st = .connected then
      { c with st := .init, link := false, opened := false, timer := false, armed := false,
               log := c.log ++ [.closing] } else c) := by
  unfold userClose
  simp only [bind_run, CM.get, andThen]
  match hs : c.st with
  | .connected =>
    have h1 : c.link = true := hl.2 (by rw [hs]; simp)
    have h2 : c.timer = true := ht.2 (by rw [hs]; simp)
    simp only [bind_run, logAct, CM.modify, andThen]
    rw [closeLink_run (by exact h1)]
    simp only
    rw [toInit_run _ (by show c.timer = true ↔ c.st ≠ .init; exact ht)]
    simp only [hs]
    rfl
  | .init => rfl
  | .connecting => rfl
  | .handshake => rfl

theorem userClose_inv (k : Bool) {T : Conn → Prop} : Tri T (Inv k) userClose (fun _ => Inv k) := by
  intro c hc
  rw [userClose_run c hc.link hc.timer]
  show Inv k (if _ then _ else _)
  by_cases hs : c.st = .connected
  · rw [if_pos hs]
    have hp := hc.phase
    rw [hs] at hp
    exact ⟨by simp, by simp, by simp, by simp, phase_append hp rfl⟩
  · rw [if_neg hs]; exact hc

theorem send_post (bytes : List UInt8) {T Q : Conn → Prop} {c : Conn} (h1 : Q c)
    (h2 : Q { c with log := c.log ++ [.sent bytes] }) : Post T (fun _ => Q) (send e bytes c) := by
  unfold send
  split
  · split
    · exact h2
    · exact h1
  · exact trivial

theorem Inv.sent {k : Bool} {c : Conn} (h : Inv k c) (bytes : List UInt8) :
    Inv k { c with log := c.log ++ [.sent bytes] } :=
  ⟨h.link, h.timer, h.armed, h.quiet, phase_append h.phase (by cases c.st <;> rfl)⟩

theorem call_inv (ha : Avail e) (k : Bool) (x : Call) {T : Conn → Prop} (hx : x = .fail → ∀ c, Inv k c → T c) :
    Tri T (Inv k) (call r e x) (fun _ => Inv k) := by
  cases x with
  | connect => exact userConnect_inv ha k
  | accept =>
    cases r with
    | client => exact Tri.ret fun _ h => h
    | server => exact userAccept_inv ha k
  | close => exact userClose_inv k
  | send bytes =>
    refine Tri.bind (R := fun _ => Inv k) ?_ (fun _ => Tri.ret fun _ h => h)
    intro c hc
    exact send_post bytes hc (hc.sent bytes)
  | consume n => exact Tri.modify fun c h => ⟨h.link, h.timer, h.armed, h.quiet, h.phase⟩
  | fail => exact hx rfl

theorem calls_inv (ha : Avail e) (k : Bool) (xs : List Call) {T : Conn → Prop}
    (hx : Call.fail ∈ xs → ∀ c, Inv k c → T c) : Tri T (Inv k) (calls r e xs) (fun _ => Inv k) := by
  induction xs with
  | nil => exact Tri.ret fun _ h => h
  | cons x xs ih =>
    exact Tri.bind (call_inv ha k x fun h => hx (by rw [h]; exact List.mem_cons_self))
      fun _ => ih fun h => hx (List.mem_cons_of_mem _ h)

/-- Calm calls between the terminal notification and the return to the idle state. -/
theorem calls_ended (xs : List Call) (h : ∀ x ∈ xs, x.calm = true) {T : Conn → Prop} :
    Tri T Ended (calls r e xs) (fun _ => Ended) := by
  induction xs with
  | nil => exact Tri.ret fun _ h => h
  | cons x xs ih =>
    refine Tri.bind (R := fun _ => Ended) ?_ fun _ => ih fun y hy => h y (List.mem_cons_of_mem _ hy)
    have hx := h x List.mem_cons_self
    cases x with
    | connect => cases hx
    | accept => cases hx
    | fail => cases hx
    | close =>
      intro c hc
      show Post T _ (userClose c)
      rw [userClose_run c hc.link hc.timer]
      show Ended (if _ then _ else _)
      split
      · exact ⟨by simp, by simp, by simp, phase_append hc.phase rfl⟩
      · exact hc
    | send bytes =>
      refine Tri.bind (R := fun _ => Ended) ?_ (fun _ => Tri.ret fun _ h => h)
      intro c hc
      exact send_post bytes hc ⟨hc.link, hc.timer, hc.quiet, phase_append hc.phase rfl⟩
    | consume n => exact Tri.modify fun c h => ⟨h.link, h.timer, h.quiet, h.phase⟩

/-! ## Events keep the invariant -/

/-- The connection is in state `s` with the invariant. -/
def At (k : Bool) (s : CSt) (c : Conn) : Prop := c.st = s ∧ Inv k c

theorem notifyError_ended (ht : Tame e) {T : Conn → Prop} {P : Conn → Prop}
    (hp : ∀ c, P c → Ended { c with log := c.log ++ [.note .error] }) :
    Tri T P (notifyError r e) (fun _ => Ended) :=
  Tri.bind (R := fun _ => Ended) (Tri.modify hp) fun _ => calls_ended _ ht.error

theorem notifyClosed_ended (ht : Tame e) {T : Conn → Prop} {P : Conn → Prop}
    (hp : ∀ c, P c → Ended { c with log := c.log ++ [.note .closed] }) :
    Tri T P (notifyClosed r e) (fun _ => Ended) :=
  Tri.bind (R := fun _ => Ended) (Tri.modify hp) fun _ => calls_ended _ ht.closed

/-- Any attempt or connection may end with an error. -/
theorem ended_error {k : Bool} {s : CSt} (hs : s ≠ .init) {c : Conn} (h : At k s c) :
    Ended { c with log := c.log ++ [.note .error] } := by
  obtain ⟨h1, h2⟩ := h
  refine ⟨h2.link, h2.timer, h2.quiet, ?_⟩
  have := h2.phase
  rw [h1] at this
  cases s with
  | init => exact absurd rfl hs
  | connecting => exact phase_append this rfl
  | handshake => exact phase_append this rfl
  | connected => exact phase_append this rfl

theorem closeLink_at {k : Bool} {s : CSt} (hs : s ≠ .init) {T : Conn → Prop} :
    Tri T (At k s) closeLink (fun _ => At k s) := by
  intro c hc
  rw [closeLink_run (hc.2.link.2 (by rw [hc.1]; exact hs))]
  exact ⟨hc.1, hc.2.link, hc.2.timer, hc.2.armed, fun h => absurd (hc.1.symm.trans h) hs, hc.2.phase⟩

theorem closeAndReport_inv (ht : Tame e) {k : Bool} {s : CSt} (hs : s ≠ .init) {T : Conn → Prop} :
    Tri T (At k s) (closeAndReport r e) (fun _ => Inv true) :=
  Tri.bind (closeLink_at hs) fun _ =>
    Tri.bind (notifyError_ended ht fun _ h => ended_error hs h) fun _ => toInit_ended true

theorem send_at (bytes : List UInt8) {k : Bool} {s : CSt} {T : Conn → Prop} :
    Tri T (At k s) (send e bytes) (fun x c => x ≠ .noerror ∧ At k s c) := by
  intro c hc
  unfold send
  split
  · split
    · exact ⟨by simp, hc.1, hc.2.sent bytes⟩
    · exact ⟨by simp, hc⟩
  · exact trivial

theorem sendOpening_at {k : Bool} {s : CSt} {T : Conn → Prop} :
    Tri T (At k s) (sendOpening r e) (fun x c => x ≠ .noerror ∧ At k s c) := by
  cases r with
  | client =>
    intro c hc
    unfold sendOpening
    simp only [bind_run, C45_hello, lift, andThen]
    exact send_at _ c hc
  | server =>
    intro c hc
    unfold sendOpening
    simp only [bind_run, C45_reverseHello, lift, andThen]
    exact send_at _ c hc

theorem sendAcknowledge_at {k : Bool} {s : CSt} {T : Conn → Prop} :
    Tri T (At k s) (sendAcknowledge e) (fun x c => x ≠ .noerror ∧ At k s c) := by
  intro c hc
  unfold sendAcknowledge
  simp only [bind_run, C45_acknowledge, lift, andThen]
  exact send_at _ c hc

theorem Inv.rx {k : Bool} {c : Conn} (h : Inv k c) (b : Buf) : Inv k { c with rx := b } :=
  ⟨h.link, h.timer, h.armed, h.quiet, h.phase⟩

theorem receiveRx_at {k : Bool} {s : CSt} : Tri (Inv k) (At k s) (receiveRx e) (fun _ => At k s) := by
  intro c hc
  unfold receiveRx
  split
  · split
    · exact ⟨hc.1, hc.2.rx _⟩
    · exact hc.2
    · exact trivial
    · exact trivial
  · split
    · exact hc
    · exact trivial

theorem decodeHandshake_at {k : Bool} {s : CSt} : Tri (Inv k) (At k s) (decodeHandshake r) (fun _ => At k s) := by
  intro c hc
  unfold decodeHandshake
  split
  · exact ⟨hc.1, hc.2.rx _⟩
  · exact hc.2.rx _
  · exact trivial
  · exact trivial

theorem receiveHandshake_at {k : Bool} {s : CSt} :
    Tri (Inv k) (At k s) (receiveHandshake r e) (fun _ => At k s) := by
  refine Tri.bind receiveRx_at fun x => ?_
  cases x with
  | noerror => exact Tri.ret fun _ h => h
  | error => exact Tri.ret fun _ h => h
  | done =>
    refine Tri.get fun c hc => ?_
    by_cases h : isHandshake r c.rx = true
    · rw [if_pos h]
      exact Tri.bind (R := fun _ => At k s) (Q := fun _ => At k s) decodeHandshake_at (fun _ => Tri.ret fun _ h => h) c hc
    · rw [if_neg h]
      exact hc

theorem toHandshake_inv (ha : Avail e) {T : Conn → Prop} :
    Tri T (At true .connecting) (toHandshake e) (fun _ => Inv true) := by
  intro c hc
  obtain ⟨hs, hi⟩ := hc
  unfold toHandshake
  rw [transit_run (by simp [hs]) (fun h => hi.timer.2 h), bind_run,
    startTimer_run ha (by show c.timer = true; exact hi.timer.2 (by simp [hs]))]
  have hl := hi.link.2 (by simp [hs])
  have ht := hi.timer.2 (by simp [hs])
  have hp := hi.phase
  rw [hs] at hp
  exact ⟨by simp [hl], by simp [ht], by simp, by simp, hp⟩

theorem toConnected_inv (ha : Avail e) (ht : Tame e) :
    Tri (Inv true) (At true .handshake) (toConnected r e) (fun _ => Inv true) := by
  intro c hc
  obtain ⟨hs, hi⟩ := hc
  unfold toConnected
  rw [transit_run (by simp [hs]) (fun h => hi.timer.2 h)]
  have hl := hi.link.2 (by simp [hs])
  have htm := hi.timer.2 (by simp [hs])
  have hp := hi.phase
  rw [hs] at hp
  have key : Tri (Inv true) (fun c => Inv false { c with log := c.log ++ [.note .connected] })
      (do notifyConnected r e; receivePreaction; startTimer e) (fun _ => Inv true) := by
    refine Tri.bind (R := fun _ => Inv false) ?_ fun _ => Tri.bind (R := fun _ => Inv false)
      (Tri.modify fun c h => h.rx _) fun _ => ?_
    · exact Tri.bind (R := fun _ => Inv false) (Tri.modify fun c h => h) fun _ =>
        calls_inv ha false _ fun h => absurd h ht.connected
    · intro c h
      by_cases hst : c.st = .init
      · have : c.timer = false := by
          cases htt : c.timer with
          | false => rfl
          | true => exact absurd hst (h.timer.1 htt)
        simp only [startTimer, this]
        exact trivial
      · rw [startTimer_run ha (h.timer.2 hst)]
        exact ⟨h.link, h.timer, fun _ _ => rfl, fun h' => absurd h' hst, h.phase⟩
  exact key _ ⟨by simp [hl], by simp [htm], by simp, by simp, phase_append hp rfl⟩

theorem onHandshake_inv (ha : Avail e) (ht : Tame e) :
    Tri (Inv true) (At true .handshake) (onHandshake r e) (fun _ => Inv true) := by
  cases r with
  | client => exact toConnected_inv ha ht
  | server =>
    refine Tri.bind sendAcknowledge_at fun x => ?_
    cases x with
    | noerror => exact fun _ h => absurd rfl h.1
    | done => exact (toConnected_inv ha ht).weaken (fun _ h => h.2) fun _ _ h => h
    | error => exact (closeAndReport_inv ht (by simp)).weaken (fun _ h => h.2) fun _ _ h => h

/-- Every event keeps the invariant, also when it ends with an exception. -/
theorem event_inv (ha : Avail e) (ht : Tame e) (v : Ev) :
    Tri (Inv true) (Inv true) (event r e v) (fun _ => Inv true) := by
  cases v with
  | user x => exact call_inv ha true x fun _ _ h => h
  | linkConnected =>
    refine Tri.get fun c hc => ?_
    match hs : c.st with
    | .init => exact hc
    | .handshake => exact hc
    | .connected => exact hc
    | .connecting =>
      refine Tri.bind (P := At true .connecting) sendOpening_at (fun x => ?_) c ⟨hs, hc⟩
      cases x with
      | noerror => exact fun _ h => absurd rfl h.1
      | done => exact (toHandshake_inv ha).weaken (fun _ h => h.2) fun _ _ h => h
      | error => exact (closeAndReport_inv ht (by simp)).weaken (fun _ h => h.2) fun _ _ h => h
  | linkData =>
    refine Tri.get fun c hc => ?_
    match hs : c.st with
    | .init => exact hc
    | .connecting => exact hc
    | .handshake =>
      refine Tri.bind (P := At true .handshake) receiveHandshake_at (fun x => ?_) c ⟨hs, hc⟩
      cases x with
      | noerror => exact Tri.ret fun _ h => h.2
      | done => exact onHandshake_inv ha ht
      | error => exact closeAndReport_inv ht (by simp)
    | .connected =>
      refine Tri.bind (P := At true .connected) receiveRx_at (fun x => ?_) c ⟨hs, hc⟩
      cases x with
      | noerror => exact Tri.ret fun _ h => h.2
      | done =>
        refine Tri.bind (R := fun _ => Inv true) ?_ fun _ => Tri.modify fun c h => h.rx _
        refine Tri.get fun c hc => ?_
        refine Tri.bind (P := At true .connected) (R := fun _ => Inv true) (Tri.modify fun c h => ?_)
          (fun _ => calls_inv ha true _ fun _ _ h => h) c hc
        have hp := h.2.phase
        rw [h.1] at hp
        exact ⟨h.2.link, h.2.timer, h.2.armed, h.2.quiet, by
          show phase _ = some c.st.phase; rw [h.1]; exact phase_append hp rfl⟩
      | error => exact closeAndReport_inv ht (by simp)
  | linkError =>
    refine Tri.bind (R := fun _ => Inv true) (Tri.modify fun c h =>
      ⟨h.link, h.timer, h.armed, fun h' => ⟨rfl, (h.quiet h').2⟩, h.phase⟩) fun _ => ?_
    refine Tri.get fun c hc => ?_
    match hs : c.st with
    | .init => exact hc
    | .handshake => exact hc
    | .connected => exact hc
    | .connecting =>
      exact Tri.bind (P := At true .connecting) (notifyError_ended ht fun _ h => ended_error (by simp) h)
        (fun _ => toInit_ended true) c ⟨hs, hc⟩
  | timer =>
    refine Tri.bind (R := fun _ => fun c => Inv false c ∧ c.armed = false) (Tri.modify fun c h =>
      ⟨⟨h.link, h.timer, by simp, fun h' => ⟨(h.quiet h').1, rfl⟩, h.phase⟩, rfl⟩) fun _ => ?_
    refine Tri.get fun c hc => ?_
    match hs : c.st with
    | .init => exact ⟨hc.1.link, hc.1.timer, fun _ h => absurd hs h, hc.1.quiet, hc.1.phase⟩
    | .connecting => exact closeAndReport_inv (k := false) (s := .connecting) ht (by simp) c ⟨hs, hc.1⟩
    | .handshake => exact closeAndReport_inv (k := false) (s := .handshake) ht (by simp) c ⟨hs, hc.1⟩
    | .connected =>
      refine Tri.bind (closeLink_at (k := false) (s := .connected) (by simp)) (fun _ =>
        Tri.bind (notifyClosed_ended ht fun c h => ?_) fun _ => toInit_ended true) c ⟨hs, hc.1⟩
      have hp := h.2.phase
      rw [h.1] at hp
      exact ⟨h.2.link, h.2.timer, h.2.quiet, phase_append hp rfl⟩

/-! ## Histories -/

theorem next_inv (ha : Avail e) (ht : Tame e) {c c' : Conn} {v : Ev} (hc : Inv true c) (h : c.next r e v = .ok c') :
    Inv true c' := by
  have hp := event_inv (r := r) ha ht v c hc
  unfold Conn.next at h
  match hm : event r e v c with
  | (.ok _, d) => rw [hm] at hp h; cases h; exact hp
  | (.throws, d) => rw [hm] at hp h; cases h; exact hp
  | (.abort, d) => rw [hm] at h; cases h
  | (.ub, d) => rw [hm] at h; cases h

theorem run_inv (es : List (Env × Ev)) (h : ∀ x ∈ es, Avail x.1 ∧ Tame x.1) {c c' : Conn} (hc : Inv true c)
    (hr : c.run r es = .ok c') : Inv true c' := by
  induction es generalizing c with
  | nil => cases hr; exact hc
  | cons x xs ih =>
    obtain ⟨e, v⟩ := x
    obtain ⟨d, h1, h2⟩ := Exec.bind_eq_ok.1 hr
    have hx := h (e, v) List.mem_cons_self
    exact ih (fun y hy => h y (List.mem_cons_of_mem _ hy)) (next_inv hx.1 hx.2 hc h1) h2

theorem create_inv (m : Mem) : Inv true (Conn.create m) := ⟨by simp [Conn.create], by simp [Conn.create],
  by simp [Conn.create], by simp [Conn.create], rfl⟩

/-- C31: after any history of calls, link events and timer expirations, a connection holds a link and a timer exactly
while it is not idle, and its timer is then running.  `_partial`: the reactor must have free links and timers, the
system calls must not fail, and the user must not reconnect or throw inside the notification of an end (`Tame`). -/
theorem C31_resources_partial (m : Mem) (es : List (Env × Ev)) (h : ∀ x ∈ es, Avail x.1 ∧ Tame x.1) (c : Conn)
    (hr : (Conn.create m).run r es = .ok c) :
    (c.link = true ↔ c.st ≠ .init) ∧ (c.timer = true ↔ c.st ≠ .init) ∧ (c.armed = true ↔ c.st ≠ .init) ∧
      (c.opened = true → c.st ≠ .init) := by
  have hi := run_inv es h (create_inv m) hr
  refine ⟨hi.link, hi.timer, ⟨fun ha hs => ?_, hi.armed rfl⟩, fun ho hs => ?_⟩
  · have := (hi.quiet hs).2; rw [ha] at this; cases this
  · have := (hi.quiet hs).1; rw [ho] at this; cases this

/-- C32: after any history the notifications, attempts and closes stand in the order of `Phase.next`, and the phase
belongs to the state.  Same conditions as `C31_resources_partial`. -/
theorem C32_order_partial (m : Mem) (es : List (Env × Ev)) (h : ∀ x ∈ es, Avail x.1 ∧ Tame x.1) (c : Conn)
    (hr : (Conn.create m).run r es = .ok c) : phase c.log = some c.st.phase :=
  (run_inv es h (create_inv m) hr).phase

/-! ### What the order means -/

theorem phaseFrom_none (l : List Act) : phaseFrom none l = none := by
  induction l with
  | nil => rfl
  | cons a l ih => exact ih

theorem phaseFrom_split (l l' : List Act) (p : Option Phase) : phaseFrom p (l ++ l') = phaseFrom (phaseFrom p l) l' := by
  induction l generalizing p with
  | nil => rfl
  | cons a l ih => exact ih _

/-- What happens on an established connection without ending it. -/
def Act.traffic : Act → Bool
  | .sent _ => true
  | .note (.data _) => true
  | _ => false

/-- A success notification. -/
def Act.success : Act → Bool
  | .note .connected => true
  | _ => false

/-- A terminal notification. -/
def Act.terminal : Act → Bool
  | .note .error => true
  | .note .closed => true
  | _ => false

theorem up_split (l : List Act) (p : Phase) (h : phaseFrom (some p) l = some .up) :
    (p = .up ∧ ∀ a ∈ l, a.traffic = true) ∨
      ∃ l1 l2, l = l1 ++ [.note .connected] ++ l2 ∧ ∀ a ∈ l2, a.traffic = true := by
  induction l generalizing p with
  | nil => cases h; exact Or.inl ⟨rfl, by simp⟩
  | cons a l ih =>
    match hq : p.next a with
    | none =>
      simp only [phaseFrom, Option.bind, hq, phaseFrom_none] at h
      cases h
    | some q =>
      simp only [phaseFrom, Option.bind, hq] at h
      rcases ih q h with ⟨rfl, hl⟩ | ⟨l1, l2, rfl, hl⟩
      · match p, a, hq with
        | .up, .sent b, _ => exact Or.inl ⟨rfl, by simpa [Act.traffic] using hl⟩
        | .up, .note (.data b), _ => exact Or.inl ⟨rfl, by simpa [Act.traffic] using hl⟩
        | .trying, .note .connected, _ => exact Or.inr ⟨[], l, rfl, hl⟩
      · exact Or.inr ⟨a :: l1, l2, rfl, hl⟩

/-- C32, no data before success or after the end: in an ordered history a data notification is preceded by a success
notification with only sends and data in between. -/
theorem C32_data_after_success {l : List Act} {d : List UInt8} {p : Phase}
    (h : phase (l ++ [.note (.data d)]) = some p) : ∃ l1 l2, l = l1 ++ [.note .connected] ++ l2 ∧
      ∀ a ∈ l2, a.traffic = true := by
  rw [phase, phaseFrom_append] at h
  match hq : phaseFrom (some .idle) l with
  | none => rw [hq] at h; cases h
  | some q =>
    rw [hq] at h
    have h : q.next (.note (.data d)) = some p := h
    match q, h with
    | .up, _ =>
      rcases up_split l .idle hq with ⟨h, _⟩ | h
      · cases h
      · exact h

theorem attempt_counts (l : List Act) (hl : Act.attempt ∉ l) (p q : Phase) (h : phaseFrom (some p) l = some q) :
    l.countP Act.success ≤ (if p = .trying then 1 else 0) ∧ l.countP Act.terminal ≤ (if p = .idle then 0 else 1) ∧
      (q = .idle → p ≠ .idle → l.countP Act.terminal = 1 ∨ Act.closing ∈ l) := by
  induction l generalizing p with
  | nil =>
    cases h
    exact ⟨by simp, by simp, fun h1 h2 => absurd h1 h2⟩
  | cons a l ih =>
    have hl' : Act.attempt ∉ l := fun h => hl (List.mem_cons_of_mem _ h)
    match hq : p.next a with
    | none =>
      simp only [phaseFrom, Option.bind, hq, phaseFrom_none] at h
      cases h
    | some p' =>
      simp only [phaseFrom, Option.bind, hq] at h
      obtain ⟨h1, h2, h3⟩ := ih hl' p' h
      match p, a, hq with
      | .idle, .sent b, rfl => exact ⟨h1, h2, fun _ h => absurd rfl h⟩
      | .trying, .sent b, rfl =>
        exact ⟨h1, h2, fun h _ => (h3 h (by simp)).imp id (List.mem_cons_of_mem _)⟩
      | .up, .sent b, rfl =>
        exact ⟨h1, h2, fun h _ => (h3 h (by simp)).imp id (List.mem_cons_of_mem _)⟩
      | .idle, .attempt, rfl => exact absurd List.mem_cons_self hl
      | .idle, .closing, rfl => exact ⟨h1, h2, fun _ h => absurd rfl h⟩
      | .trying, .note .connected, rfl =>
        refine ⟨by simpa [List.countP_cons, Act.success] using h1, h2, fun h _ => ?_⟩
        exact (h3 h (by simp)).imp id (List.mem_cons_of_mem _)
      | .trying, .note .error, rfl =>
        have h2 : l.countP Act.terminal = 0 := by simpa using h2
        have e : (Act.note .error :: l).countP Act.terminal = 1 := by
          rw [List.countP_cons, h2]; rfl
        have e' : (Act.note .error :: l).countP Act.success = l.countP Act.success := by
          rw [List.countP_cons]; rfl
        refine ⟨by rw [e']; exact Nat.le_trans h1 (by decide), by rw [e]; decide, fun _ _ => Or.inl e⟩
      | .up, .note (.data b), rfl =>
        exact ⟨h1, h2, fun h _ => (h3 h (by simp)).imp id (List.mem_cons_of_mem _)⟩
      | .up, .note .error, rfl =>
        have h2 : l.countP Act.terminal = 0 := by simpa using h2
        have e : (Act.note .error :: l).countP Act.terminal = 1 := by
          rw [List.countP_cons, h2]; rfl
        exact ⟨h1, by rw [e]; decide, fun _ _ => Or.inl e⟩
      | .up, .note .closed, rfl =>
        have h2 : l.countP Act.terminal = 0 := by simpa using h2
        have e : (Act.note .closed :: l).countP Act.terminal = 1 := by
          rw [List.countP_cons, h2]; rfl
        exact ⟨h1, by rw [e]; decide, fun _ _ => Or.inl e⟩
      | .up, .closing, rfl =>
        exact ⟨h1, Nat.le_trans h2 (by decide), fun _ _ => Or.inr List.mem_cons_self⟩

/-- C32: in an ordered history, between two attempts there is at most one success notification and at most one
terminal notification; there is exactly one unless the user closed the connection. -/
theorem C32_one_end {l1 l2 l3 : List Act} (h : phase (l1 ++ .attempt :: (l2 ++ .attempt :: l3)) ≠ none)
    (hl : Act.attempt ∉ l2) : l2.countP Act.success ≤ 1 ∧ l2.countP Act.terminal ≤ 1 ∧
      (l2.countP Act.terminal = 1 ∨ Act.closing ∈ l2) := by
  unfold phase at h
  rw [phaseFrom_split] at h
  match hp : phaseFrom (some .idle) l1 with
  | none => rw [hp, phaseFrom_none] at h; exact absurd rfl h
  | some p =>
    rw [hp] at h
    simp only [phaseFrom, Option.bind] at h
    cases p with
    | trying => rw [show Phase.next .trying .attempt = none from rfl, phaseFrom_none] at h; exact absurd rfl h
    | up => rw [show Phase.next .up .attempt = none from rfl, phaseFrom_none] at h; exact absurd rfl h
    | idle =>
      rw [show Phase.next .idle .attempt = some .trying from rfl, phaseFrom_split] at h
      match hq : phaseFrom (some .trying) l2 with
      | none => rw [hq, phaseFrom_none] at h; exact absurd rfl h
      | some q =>
        rw [hq] at h
        simp only [phaseFrom, Option.bind] at h
        have hi : q = .idle := by
          cases q with
          | idle => rfl
          | trying => rw [show Phase.next .trying .attempt = none from rfl, phaseFrom_none] at h; exact absurd rfl h
          | up => rw [show Phase.next .up .attempt = none from rfl, phaseFrom_none] at h; exact absurd rfl h
        obtain ⟨h1, h2, h3⟩ := attempt_counts l2 hl .trying q hq
        exact ⟨h1, h2, h3 hi (by simp)⟩

/-! ## Every end leads to the idle state -/

theorem toInit_at (k : Bool) {T : Conn → Prop} : Tri T Ended toInit (fun _ => At k .init) := by
  intro c hc
  have h := toInit_ended k (T := T) c hc
  rw [toInit_run c hc.timer] at h ⊢
  refine ⟨?_, h⟩
  show (if c.st = .init then c else _).st = _
  split
  · assumption
  · rfl

theorem closeAndReport_at (ht : Tame e) {k : Bool} {s : CSt} (hs : s ≠ .init) {T : Conn → Prop} :
    Tri T (At k s) (closeAndReport r e) (fun _ => At true .init) :=
  Tri.bind (closeLink_at hs) fun _ =>
    Tri.bind (notifyError_ended ht fun _ h => ended_error hs h) fun _ => toInit_at true

theorem next_post {Q : Conn → Prop} {c c' : Conn} {v : Ev} (hp : Post Q (fun _ => Q) (event r e v c))
    (h : c.next r e v = .ok c') : Q c' := by
  unfold Conn.next at h
  match hm : event r e v c with
  | (.ok _, d) => rw [hm] at hp h; cases h; exact hp
  | (.throws, d) => rw [hm] at hp h; cases h; exact hp
  | (.abort, d) => rw [hm] at h; cases h
  | (.ub, d) => rw [hm] at h; cases h

/-- The events that end an attempt or a connection. -/
inductive Ends (e : Env) : Ev → CSt → Prop where
  | timeout {s : CSt} (h : s ≠ .init) : Ends e .timer s
  | refused : Ends e .linkError .connecting
  | unsent (h : e.writes = false) : Ends e .linkConnected .connecting
  | unread {s : CSt} (hs : s = .handshake ∨ s = .connected) (h : e.rx = .error) : Ends e .linkData s
  | close : Ends e (.user .close) .connected

theorem receive_error (o : Bool) (b : Buf) : receive o .error b = .ok (.error, b) := by
  unfold receive
  split
  · rfl
  · split <;> rfl

theorem receiveRx_error (h : e.rx = .error) {k : Bool} {s : CSt} {T : Conn → Prop} :
    Tri T (At k s) (receiveRx e) (fun x c => x = .error ∧ At k s c) := by
  intro c hc
  unfold receiveRx
  rw [h, receive_error]
  split
  · exact ⟨rfl, hc⟩
  · split
    · exact ⟨rfl, hc⟩
    · exact trivial

theorem send_fails (h : e.writes = false) (bytes : List UInt8) {k : Bool} {s : CSt} {T : Conn → Prop} :
    Tri T (At k s) (send e bytes) (fun x c => x = .error ∧ At k s c) := by
  intro c hc
  unfold send
  rw [h, Bool.and_false]
  split
  · exact ⟨rfl, hc⟩
  · exact trivial

/-- C31: a timeout in any state, a refused connect, a failed write or read during the handshake or afterwards, and a
`close` call on an established connection all end in the idle state with link and timer released. -/
theorem C31_ends_idle_partial (m : Mem) (es : List (Env × Ev)) (h : ∀ x ∈ es, Avail x.1 ∧ Tame x.1) (c : Conn)
    (hr : (Conn.create m).run r es = .ok c) (v : Ev) (hv : Ends e v c.st) (ht : Tame e) (c' : Conn)
    (hn : c.next r e v = .ok c') : c'.st = .init ∧ c'.link = false ∧ c'.timer = false := by
  have hi := run_inv es h (create_inv m) hr
  have key : Post (At true .init) (fun _ => At true .init) (event r e v c) := by
    generalize hs : c.st = s at hv
    cases hv with
    | timeout hne =>
      refine Tri.bind (P := At true s) (R := fun _ => At false s)
        (Tri.modify (f := fun c => { c with armed := false }) fun c h => ⟨h.1, h.2.link, h.2.timer,
        by simp, fun h' => ⟨(h.2.quiet h').1, rfl⟩, h.2.phase⟩) (fun _ => Tri.get fun c hc => ?_) c ⟨hs, hi⟩
      rw [hc.1]
      match s, hne, hc with
      | .connecting, _, hc => exact closeAndReport_at (k := false) (s := .connecting) ht (by simp) _ hc
      | .handshake, _, hc => exact closeAndReport_at (k := false) (s := .handshake) ht (by simp) _ hc
      | .connected, _, hc =>
        refine Tri.bind (closeLink_at (k := false) (s := .connected) (by simp)) (fun _ =>
          Tri.bind (notifyClosed_ended ht fun c h => ?_) fun _ => toInit_at true) _ hc
        have hp := h.2.phase
        rw [h.1] at hp
        exact ⟨h.2.link, h.2.timer, h.2.quiet, phase_append hp rfl⟩
    | refused =>
      refine Tri.bind (P := At true .connecting) (R := fun _ => At true .connecting)
        (Tri.modify (f := fun c => { c with opened := false }) fun c h => ⟨h.1, h.2.link,
        h.2.timer, h.2.armed, fun h' => ⟨rfl, (h.2.quiet h').2⟩, h.2.phase⟩) (fun _ => Tri.get fun c hc => ?_) c ⟨hs, hi⟩
      rw [hc.1]
      exact Tri.bind (P := At true .connecting) (notifyError_ended ht fun _ h => ended_error (by simp) h)
        (fun _ => toInit_at true) _ hc
    | unsent hw =>
      show Post _ _ (onConnected r e c)
      unfold onConnected
      simp only [bind_run, CM.get, andThen]
      rw [hs]
      have hso : Tri (At true .init) (At true .connecting) (sendOpening r e) (fun x c => x = .error ∧ At true .connecting c) := by
        intro c hc
        unfold sendOpening
        cases r with
        | client =>
          simp only [bind_run, C45_hello, lift, andThen]
          exact send_fails hw _ c hc
        | server =>
          simp only [bind_run, C45_reverseHello, lift, andThen]
          exact send_fails hw _ c hc
      refine Tri.bind hso (fun x => ?_) c ⟨hs, hi⟩
      cases x with
      | noerror => exact fun _ h => absurd h.1 (by simp)
      | done => exact fun _ h => absurd h.1 (by simp)
      | error => exact (closeAndReport_at ht (by simp)).weaken (fun _ h => h.2) fun _ _ h => h
    | unread hsx hrx =>
      show Post _ _ (onData r e c)
      unfold onData
      simp only [bind_run, CM.get, andThen]
      rw [hs]
      rcases hsx with rfl | rfl
      · refine Tri.bind (P := At true .handshake) (R := fun x c => x = .error ∧ At true .handshake c) ?_ (fun x => ?_) c ⟨hs, hi⟩
        · refine Tri.bind (receiveRx_error hrx) fun x => ?_
          cases x with
          | noerror => exact fun _ h => absurd h.1 (by simp)
          | done => exact fun _ h => absurd h.1 (by simp)
          | error => exact Tri.ret fun _ h => h
        · cases x with
          | noerror => exact fun _ h => absurd h.1 (by simp)
          | done => exact fun _ h => absurd h.1 (by simp)
          | error => exact (closeAndReport_at ht (by simp)).weaken (fun _ h => h.2) fun _ _ h => h
      · refine Tri.bind (P := At true .connected) (receiveRx_error hrx) (fun x => ?_) c ⟨hs, hi⟩
        cases x with
        | noerror => exact fun _ h => absurd h.1 (by simp)
        | done => exact fun _ h => absurd h.1 (by simp)
        | error => exact (closeAndReport_at ht (by simp)).weaken (fun _ h => h.2) fun _ _ h => h
    | close =>
      show Post _ _ (userClose c)
      have := userClose_inv true (T := At true .init) c hi
      rw [userClose_run c hi.link hi.timer, if_pos hs] at this ⊢
      exact ⟨rfl, this⟩
  have hq := next_post key hn
  refine ⟨hq.1, ?_, ?_⟩
  · cases hl : c'.link with
    | false => rfl
    | true => exact absurd hq.1 (hq.2.link.1 hl)
  · cases hl : c'.timer with
    | false => rfl
    | true => exact absurd hq.1 (hq.2.timer.1 hl)

/-- C31: an idle connection, whatever happened before, can be used again (when links and timers are left and the system
calls succeed). -/
theorem C31_reusable_partial (c : Conn) (hs : c.st = .init) (ha : Avail e) :
    ∃ c', c.next r e (.user .connect) = .ok c' ∧ c'.st = .connecting ∧ c'.link = true ∧ c'.opened = true ∧
      c'.timer = true ∧ c'.armed = true ∧ c'.log = c.log ++ [.attempt] := by
  let d : Conn :=
    { c with st := .connecting, link := true, opened := true, timer := true, armed := true, log := c.log ++ [.attempt] }
  have h : event r e (.user .connect) c = (.ok (), d) := by
    show userConnect e c = _
    unfold userConnect
    simp only [bind_run, CM.get, andThen]
    rw [hs]
    simp only [allocLink, allocTimer, ha.link, ha.timer, if_true, bind_run, CM.modify, andThen, logAct]
    unfold toConnecting
    rw [transit_run (by simp [hs]) (by simp)]
    simp only [bind_run, connectLink, startTimer, ha.connects, ha.starts, if_true, andThen]
    rfl
  refine ⟨d, ?_, rfl, rfl, rfl, rfl, rfl, rfl⟩
  unfold Conn.next
  rw [h]

/-! ## C30: chunks through a connection -/

/-- An established connection between two chunks. -/
structure Ready (c : Conn) : Prop where
  st : c.st = .connected
  link : c.link = true
  opened : c.opened = true
  tail : c.rx.tail = 0
  head : c.rx.head = 0

/-- The events for a stream that arrives in the pieces `ps`. -/
def arrivals (e : Env) (ps : List (List UInt8)) : List (Env × Ev) := ps.map fun p => ({ e with rx := .ok p }, .linkData)

theorem next_piece {c : Conn} {p : List UInt8} {b : Buf} (hs : c.st = .connected) (hl : c.link = true)
    (ho : c.opened = true) (h : receive true (.ok p) c.rx = .ok (.noerror, b)) :
    c.next r { e with rx := .ok p } .linkData = .ok { c with rx := b } := by
  unfold Conn.next
  simp only [event, onData, bind_run, CM.get, andThen, hs, receiveRx, hl, ho, if_true, h]
  rfl

theorem next_last {c : Conn} {p : List UInt8} {b : Buf} (he : e.onData = []) (hs : c.st = .connected) (hl : c.link = true)
    (ho : c.opened = true) (h : receive true (.ok p) c.rx = .ok (.done, b)) :
    c.next r { e with rx := .ok p } .linkData =
      .ok { c with rx := b.reset, log := c.log ++ [.note (.data b.bytes)] } := by
  unfold Conn.next
  simp only [event, onData, bind_run, CM.get, andThen, hs, receiveRx, hl, ho, if_true, h, notifyData, logAct, CM.modify,
    he, calls, receivePreaction]
  rfl

theorem run_feed (he : e.onData = []) (n : Nat) (ps : List (List UInt8)) (c : Conn) (b : Buf) (hs : c.st = .connected)
    (hl : c.link = true) (ho : c.opened = true)
    (h : feed (ps.map .ok) c.rx = .ok (List.replicate n .noerror ++ [.done], b)) :
    c.run r (arrivals e ps) = .ok { c with rx := b.reset, log := c.log ++ [.note (.data b.bytes)] } := by
  induction n generalizing ps c with
  | zero =>
    match ps with
    | [] => simp [feed] at h
    | p :: ps =>
      obtain ⟨⟨x, b1⟩, h1, h2⟩ := Exec.bind_eq_ok.1 h
      obtain ⟨⟨xs, b2⟩, h3, h4⟩ := Exec.bind_eq_ok.1 h2
      simp only [Exec.pure_eq, Exec.ok.injEq, Prod.mk.injEq, List.replicate_zero, List.nil_append,
        List.cons.injEq] at h4
      obtain ⟨⟨rfl, rfl⟩, rfl⟩ := h4
      match ps with
      | [] =>
        simp only [feed, List.map_nil, Exec.ok.injEq, Prod.mk.injEq] at h3
        obtain ⟨_, rfl⟩ := h3
        simp only [arrivals, List.map_cons, List.map_nil, Conn.run]
        rw [next_last he hs hl ho h1]
        rfl
      | q :: qs =>
        obtain ⟨⟨x, b1⟩, _, h5⟩ := Exec.bind_eq_ok.1 h3
        obtain ⟨⟨xs, b3⟩, _, h6⟩ := Exec.bind_eq_ok.1 h5
        simp at h6
  | succ n ih =>
    match ps with
    | [] => simp [feed] at h
    | p :: ps =>
      obtain ⟨⟨x, b1⟩, h1, h2⟩ := Exec.bind_eq_ok.1 h
      obtain ⟨⟨xs, b2⟩, h3, h4⟩ := Exec.bind_eq_ok.1 h2
      simp only [Exec.pure_eq, Exec.ok.injEq, Prod.mk.injEq, List.replicate_succ, List.cons_append,
        List.cons.injEq] at h4
      obtain ⟨⟨rfl, rfl⟩, rfl⟩ := h4
      have := ih ps { c with rx := b1 } hs hl ho h3
      simp only [arrivals, List.map_cons, Conn.run] at this ⊢
      rw [next_piece hs hl ho h1, Exec.ok_bind]
      exact this

/-- C30: an established connection delivers a chunk with its last piece, exactly once and exactly its bytes, and is then
ready for the next one.  `_partial`: at most 1024 bytes before the last piece, the chunk fits into 4096 bytes, the
last piece does not bring bytes of the next chunk; here the user does nothing when notified. -/
theorem C30_connection_partial (he : e.onData = []) (c : Conn) (hc : Ready c) (ps : List (List UInt8)) (last : List UInt8)
    (hf : IsChunk (ps.flatten ++ last)) (hlast : last ≠ []) (h1 : ps.flatten.length ≤ 1024)
    (h2 : (ps.flatten ++ last).length ≤ 4096) :
    ∃ c', c.run r (arrivals e (ps ++ [last])) = .ok c' ∧ Ready c' ∧
      c'.log = c.log ++ [.note (.data (ps.flatten ++ last))] := by
  obtain ⟨b, hb, _, hbytes⟩ := C30_framing_partial c.rx ps last hc.tail hc.head hf hlast h1 h2
  have := run_feed (r := r) he ps.length (ps ++ [last]) c b hc.st hc.link hc.opened hb
  exact ⟨_, this, ⟨hc.st, hc.link, hc.opened, rfl, rfl⟩, by rw [← hbytes]⟩

theorem run_append (es fs : List (Env × Ev)) (c : Conn) :
    c.run r (es ++ fs) = (c.run r es >>= fun c' => c'.run r fs) := by
  induction es generalizing c with
  | nil => rfl
  | cons x xs ih =>
    obtain ⟨e, v⟩ := x
    simp only [List.cons_append, Conn.run]
    match h : c.next r e v with
    | .ok d => simpa only [Exec.ok_bind] using ih d
    | .throws => rfl
    | .abort => rfl
    | .ub => rfl

/-- A cut of a chunk that the connection can handle. -/
def GoodCut (x : List (List UInt8) × List UInt8) : Prop :=
  IsChunk (x.1.flatten ++ x.2) ∧ x.2 ≠ [] ∧ x.1.flatten.length ≤ 1024 ∧ (x.1.flatten ++ x.2).length ≤ 4096

/-- C30: a whole stream of chunks, each cut in its own way, is delivered chunk by chunk in order. -/
theorem C30_stream_partial (he : e.onData = []) (xs : List (List (List UInt8) × List UInt8)) (hx : ∀ x ∈ xs, GoodCut x)
    (c : Conn) (hc : Ready c) :
    ∃ c', c.run r ((xs.map fun x => arrivals e (x.1 ++ [x.2])).flatten) = .ok c' ∧ Ready c' ∧
      c'.log = c.log ++ xs.map fun x => .note (.data (x.1.flatten ++ x.2)) := by
  induction xs generalizing c with
  | nil => exact ⟨c, rfl, hc, by simp⟩
  | cons x xs ih =>
    obtain ⟨g1, g2, g3, g4⟩ := hx x List.mem_cons_self
    obtain ⟨d, hd, hrd, hld⟩ := C30_connection_partial (r := r) he c hc x.1 x.2 g1 g2 g3 g4
    obtain ⟨d', hd', hrd', hld'⟩ := ih (fun y hy => hx y (List.mem_cons_of_mem _ hy)) d hrd
    refine ⟨d', ?_, hrd', ?_⟩
    · rw [List.map_cons, List.flatten_cons, run_append, hd, Exec.ok_bind, hd']
    · rw [hld', hld, List.append_assoc]
      rfl

/-! ## Where the code falls short -/

/-- An environment in which everything works and the user does nothing. -/
def calmEnv : Env :=
  { linkFree := true, timerFree := true, connects := true, starts := true, writes := true, rx := .na,
    onConnected := [], onData := [], onClosed := [], onError := [] }

theorem calmEnv_avail : Avail calmEnv ∧ Tame calmEnv :=
  ⟨⟨rfl, rfl, rfl, rfl⟩, ⟨by simp [calmEnv], by simp [calmEnv], by simp [calmEnv]⟩⟩

/-- C31: when the reactor has no timer left, `connect` throws but keeps the link although the connection is idle. -/
theorem C31_timer_exhausted_violated : ∃ c, (Conn.create garbage).run .client
    [({ calmEnv with timerFree := false }, .user .connect)] = .ok c ∧ c.st = .init ∧ c.link = true ∧ c.timer = false :=
  ⟨_, rfl, rfl, rfl, rfl⟩

/-- The calls and events that can reach a connection without a file descriptor and without a running timer. -/
def Ev.isCall : Ev → Bool
  | .user .fail => true
  | .user .connect => true
  | .user .accept => true
  | .user .close => true
  | _ => false

/-- C31: when `connect` fails at once, the connection is left in the connecting state with no timer running; the user is
not notified, and no later connect, accept or close call, in any number, changes anything. -/
theorem C31_connect_fails_violated (es : List (Env × Ev)) (h : ∀ x ∈ es, x.2.isCall = true) :
    ∃ c, (Conn.create garbage).run r (({ calmEnv with connects := false }, .user .connect) :: es) = .ok c ∧
      c.st = .connecting ∧ c.link = true ∧ c.opened = false ∧ c.armed = false ∧ c.log = [.attempt] := by
  have stuck : ∀ (es : List (Env × Ev)) (c : Conn), (∀ x ∈ es, x.2.isCall = true) → c.st = .connecting →
      c.run r es = .ok c := by
    intro es
    induction es with
    | nil => intro c _ _; rfl
    | cons x xs ih =>
      intro c h hs
      obtain ⟨e, v⟩ := x
      have hv := h (e, v) List.mem_cons_self
      have hn : c.next r e v = .ok c := by
        unfold Conn.next
        match v, hv with
        | .user .fail, _ => rfl
        | .user .connect, _ =>
          simp only [event, call, userConnect, bind_run, CM.get, andThen, hs]
          rfl
        | .user .accept, _ =>
          cases r with
          | client => rfl
          | server =>
            simp only [event, call, userAccept, bind_run, CM.get, andThen, hs]
            rfl
        | .user .close, _ =>
          simp only [event, call, userClose, bind_run, CM.get, andThen, hs]
          rfl
      simp only [Conn.run]
      rw [hn, Exec.ok_bind]
      exact ih c (fun y hy => h y (List.mem_cons_of_mem _ hy)) hs
  let d : Conn := { Conn.create garbage with st := .connecting, link := true, timer := true, log := [.attempt] }
  have hd : (Conn.create garbage).next r { calmEnv with connects := false } (.user .connect) = .ok d := rfl
  refine ⟨d, ?_, rfl, rfl, rfl, rfl, rfl⟩
  simp only [Conn.run]
  rw [hd, Exec.ok_bind]
  exact stuck es d h rfl

/-- C32: a link error on an established connection is not reported and does not end it. -/
theorem C32_link_error_violated (c : Conn) (hs : c.st = .connected) :
    c.next r e .linkError = .ok { c with opened := false } := by
  unfold Conn.next
  simp only [event, onError, bind_run, CM.modify, CM.get, andThen, hs]
  rfl

/-- C32: the end of the stream (the peer closed) on an established connection between two chunks changes nothing and is
not reported. -/
theorem C32_remote_close_violated (c : Conn) (hc : Ready c) :
    ∃ c', c.next r { e with rx := .ok [] } .linkData = .ok c' ∧ c'.log = c.log ∧ c'.st = .connected := by
  have h : receive true (.ok []) c.rx = .ok (.noerror, c.rx.append []) := by
    refine receive_ok (by rw [hc.head]; omega) (by rw [hc.head]; simp) ?_
    unfold evaluate
    have hsz : (c.rx.append []).size = 0 := by
      show c.rx.head + 0 = 0
      rw [hc.head]
    have h8 : messageHeaderSize = 8 := rfl
    rw [if_pos (by omega)]
  exact ⟨_, next_piece hc.st hc.link hc.opened h, rfl, hc.st⟩

/-! ## Concrete runs -/

/-- Bytes of an Acknowledge chunk. -/
def ackFrame : List UInt8 := [0x41, 0x43, 0x4B, 0x46, 28, 0, 0, 0, 0, 0, 0, 0, 0, 0, 1, 0, 0, 0, 1, 0, 0, 0, 0x88, 0x13,
  0x88, 0x13, 0, 0]

/-- Bytes of a Hello chunk. -/
def helloFrame : List UInt8 := [0x48, 0x45, 0x4C, 0x46, 32, 0, 0, 0, 0, 0, 0, 0, 0, 0, 1, 0, 0, 0, 1, 0, 0, 0, 1, 0, 0x88,
  0x13, 0, 0, 0xFF, 0xFF, 0xFF, 0xFF]

/-- State and log of a run. -/
def observe (r : Role) (es : List (Env × Ev)) : Option (CSt × Bool × Bool × List Act) :=
  match (Conn.create garbage).run r es with
  | .ok c => some (c.st, c.link, c.timer, c.log)
  | _ => none

/-- C32: a user who reconnects inside the error notification loses the new attempt: it is begun and then dropped with no
notification. -/
theorem C32_reconnect_violated : observe .client [(calmEnv, .user .connect), (calmEnv, .linkConnected),
    ({ calmEnv with rx := .ok ackFrame }, .linkData),
    ({ calmEnv with rx := .error, onError := [.close, .connect] }, .linkData)] =
    some (.init, false, false, [.attempt, .sent helloFrame, .note .connected, .note .error, .closing, .attempt]) := by
  decide +kernel

/-- C31: a user who closes the connection inside the success notification runs into undefined behaviour (the timer is
started through a null pointer). -/
theorem C31_close_in_success_violated : ((Conn.create garbage).run .client [(calmEnv, .user .connect),
    (calmEnv, .linkConnected), ({ calmEnv with rx := .ok ackFrame, onConnected := [.close] }, .linkData)]
      matches .ub) = true := by
  decide +kernel

/-- A client connects, exchanges Hello and Acknowledge (cut in two), gets one message and is closed by the timer. -/
example : observe .client [(calmEnv, .user .connect), (calmEnv, .linkConnected),
    ({ calmEnv with rx := .ok (ackFrame.take 5) }, .linkData), ({ calmEnv with rx := .ok (ackFrame.drop 5) }, .linkData),
    ({ calmEnv with rx := .ok [0x4D, 0x53, 0x47, 0x46, 9, 0, 0, 0, 5] }, .linkData), (calmEnv, .timer)] =
    some (.init, false, false, [.attempt, .sent helloFrame, .note .connected,
      .note (.data [0x4D, 0x53, 0x47, 0x46, 9, 0, 0, 0, 5]), .note .closed]) := by decide +kernel

/-- A server accepts, answers Hello with Acknowledge and closes at the user's wish when the first message arrives. -/
example : observe .server [(calmEnv, .user .accept), ({ calmEnv with rx := .ok helloFrame }, .linkData),
    ({ calmEnv with rx := .ok [0x4D, 0x53, 0x47, 0x46, 9, 0, 0, 0, 5], onData := [.close] }, .linkData)] =
    some (.init, false, false, [.attempt, .sent ackFrame, .note .connected,
      .note (.data [0x4D, 0x53, 0x47, 0x46, 9, 0, 0, 0, 5]), .closing]) := by decide +kernel

/-- A Hello that arrives where an Acknowledge is expected ends the attempt. -/
example : observe .client [(calmEnv, .user .connect), (calmEnv, .linkConnected),
    ({ calmEnv with rx := .ok helloFrame }, .linkData)] =
    some (.init, false, false, [.attempt, .sent helloFrame, .note .error]) := by decide +kernel

/-! ## C47: what a peer can do during the handshake -/

/-- A decoder that consumes `n` bytes whatever they are. -/
def Takes {α : Type} (n : Nat) (d : Codec α) : Prop :=
  ∀ b : Buf, b.tail + n ≤ 4096 → ∃ v, d b = .ok (v, { b with tail := b.tail + n })

theorem Takes.read : Takes 1 read := fun b h => ⟨b.packet b.tail, if_pos (by
  show b.tail < 4096; omega)⟩

theorem Takes.pure {α : Type} (v : α) : Takes 0 (pure v : Codec α) := fun _ _ => ⟨v, rfl⟩

theorem Takes.bind {α β : Type} {n k : Nat} {d : Codec α} {f : α → Codec β} (h1 : Takes n d) (h2 : ∀ a, Takes k (f a)) :
    Takes (n + k) (d >>= f) := by
  intro b h
  obtain ⟨v, hv⟩ := h1 b (by omega)
  obtain ⟨w, hw⟩ := h2 v { b with tail := b.tail + n } (by show b.tail + n + k ≤ 4096; omega)
  refine ⟨w, ?_⟩
  rw [Codec.bind_run, hv, Exec.ok_bind]
  simp only at hw ⊢
  rw [hw, Nat.add_assoc]

theorem Takes.then_ub {α β : Type} {n : Nat} {d : Codec α} {f : α → Codec β} {b : Buf} (h : Takes n d)
    (hb : b.tail + n ≤ 4096) (hf : ∀ a, f a { b with tail := b.tail + n } = .ub) : (d >>= f) b = .ub := by
  obtain ⟨v, hv⟩ := h b hb
  rw [Codec.bind_run, hv, Exec.ok_bind]
  exact hf v

theorem Codec.ub_then {α β : Type} {d : Codec α} {f : α → Codec β} {b : Buf} (h : d b = .ub) : (d >>= f) b = .ub := by
  rw [Codec.bind_run, h]
  rfl

theorem Takes.u8 (old : UInt8) : Takes 1 (dec old) := Takes.read

theorem Takes.u32 (old : UInt32) : Takes 4 (dec old) :=
  Takes.bind (n := 1) (k := 3) Takes.read fun _ => Takes.bind (n := 1) (k := 2) Takes.read fun _ =>
    Takes.bind (n := 1) (k := 1) Takes.read fun _ => Takes.bind (n := 1) (k := 0) Takes.read fun _ => Takes.pure _

theorem Takes.header (old : MessageHeader) : Takes 8 (dec old) :=
  Takes.bind (n := 3) (k := 5) (Takes.bind (n := 1) (k := 2) (Takes.u8 _) fun _ => Takes.bind (n := 2) (k := 0)
      (Takes.bind (n := 1) (k := 1) (Takes.u8 _) fun _ => Takes.bind (n := 1) (k := 0) (Takes.u8 _) fun _ => Takes.pure _)
      fun _ => Takes.pure _)
    fun _ => Takes.bind (n := 1) (k := 4) (Takes.u8 _) fun _ => Takes.bind (n := 4) (k := 0) (Takes.u32 _)
    fun _ => Takes.pure _

theorem Takes.ack (old : AcknowledgeMessage) : Takes 20 (dec old) :=
  Takes.bind (n := 4) (k := 16) (Takes.u32 _) fun _ => Takes.bind (n := 4) (k := 12) (Takes.u32 _) fun _ =>
    Takes.bind (n := 4) (k := 8) (Takes.u32 _) fun _ => Takes.bind (n := 4) (k := 4) (Takes.u32 _) fun _ =>
    Takes.bind (n := 4) (k := 0) (Takes.u32 _) fun _ => Takes.pure _

/-- C47: cutting chunks out of the stream is defined for every byte sequence, as long as the buffer was reset. -/
theorem C47_framing (o : Bool) (x : Rx) (b : Buf) (ht : b.tail = 0) : ∃ y, receive o x b = .ok y := by
  have hev : ∀ b : Buf, b.tail = 0 → ∃ y, evaluate b = .ok y := by
    intro b ht
    have h8 : messageHeaderSize = 8 := rfl
    have hp : maxPacketLen = 4096 := rfl
    unfold evaluate
    split
    · exact ⟨_, rfl⟩
    · rw [if_neg (by omega)]
      split
      · exact ⟨_, rfl⟩
      · split <;> exact ⟨_, rfl⟩
  unfold receive
  split
  · exact ⟨_, rfl⟩
  · split
    · cases x with
      | na => exact ⟨_, rfl⟩
      | error => exact ⟨_, rfl⟩
      | ok bytes =>
        obtain ⟨y, hy⟩ := hev (b.received bytes) ht
        simp only [hy, Exec.ok_bind, Exec.pure_eq]
        exact ⟨_, rfl⟩
    · exact ⟨_, rfl⟩

/-- C47: the client decodes whatever Acknowledge it is sent, even a truncated one, without leaving its buffer. -/
theorem C47_ack (b : Buf) (ht : b.tail = 0) : ∃ b', handshakeDec .client b = .ok ((), b') := by
  have : Takes 28 (handshakeDec .client) :=
    Takes.bind (n := 8) (k := 20) (Takes.header _) fun _ => Takes.bind (n := 20) (k := 0) (Takes.ack _) fun _ => Takes.pure _
  obtain ⟨v, hv⟩ := this b (by omega)
  exact ⟨_, hv⟩

/-- C47 is false for the server: a Hello whose url announces more bytes than the receive buffer has makes it read outside
the buffer. -/
theorem C47_hello_violated (b : Buf) (n : Nat) (ht : b.tail = 0) (hb : memRead b.packet 28 4 = leBytes 4 n) (h1 : 4064 < n)
    (h2 : n < 2 ^ 31) : handshakeDec .server b = .ub := by
  refine Takes.then_ub (Takes.header _) (by omega) fun _ => ?_
  refine Codec.ub_then ?_
  refine Takes.then_ub (Takes.u32 _) (by show b.tail + 8 + 4 ≤ 4096; omega) fun _ => ?_
  refine Takes.then_ub (Takes.u32 _) (by show b.tail + 8 + 4 + 4 ≤ 4096; omega) fun _ => ?_
  refine Takes.then_ub (Takes.u32 _) (by show b.tail + 8 + 4 + 4 + 4 ≤ 4096; omega) fun _ => ?_
  refine Takes.then_ub (Takes.u32 _) (by show b.tail + 8 + 4 + 4 + 4 + 4 ≤ 4096; omega) fun _ => ?_
  refine Takes.then_ub (Takes.u32 _) (by show b.tail + 8 + 4 + 4 + 4 + 4 + 4 ≤ 4096; omega) fun _ => ?_
  refine Codec.ub_then ?_
  exact C29_outside_array_violated _ _ n h2 (by simpa [ht] using hb)
    (by show b.tail + 8 + 4 + 4 + 4 + 4 + 4 + 4 ≤ 4096; omega)
    (by show 4096 < b.tail + 8 + 4 + 4 + 4 + 4 + 4 + 4 + n; omega)

/-- A Hello of 32 bytes, complete and accepted by the framing, with such a url length. -/
example : handshakeDec .server ((Buf.create garbage).append (helloFrame.take 28 ++ [0, 0x20, 0, 0])) = .ub ∧
    IsChunk (helloFrame.take 28 ++ [0, 0x20, 0, 0]) :=
  ⟨C47_hello_violated _ 0x2000 rfl (by decide +kernel) (by decide) (by decide), by decide⟩

/-! ### The theorems at concrete states -/

/-- A client that has connected and received one chunk. -/
def visit : List (Env × Ev) := [(calmEnv, .user .connect), (calmEnv, .linkConnected), ({ calmEnv with rx := .ok ackFrame }, .linkData),
  ({ calmEnv with rx := .ok [0x4D, 0x53, 0x47, 0x46, 9, 0, 0, 0, 5] }, .linkData)]

def visitLog : List Act := [.attempt, .sent helloFrame, .note .connected, .note (.data [0x4D, 0x53, 0x47, 0x46, 9, 0, 0, 0, 5])]

theorem visit_tame : ∀ x ∈ visit, Avail x.1 ∧ Tame x.1 := by
  intro x hx
  simp only [visit, List.mem_cons, List.not_mem_nil, or_false] at hx
  rcases hx with rfl | rfl | rfl | rfl <;> exact ⟨⟨rfl, rfl, rfl, rfl⟩, ⟨by decide, by decide, by decide⟩⟩

theorem visit_runs : ∃ c c', (Conn.create garbage).run .client visit = .ok c ∧ c.next .client calmEnv .timer = .ok c' ∧ c.st = .connected ∧ c.opened = true ∧
    c.rx.tail = 0 ∧ c.rx.head = 0 ∧ c.log = visitLog := by
  have h : ((Conn.create garbage).run .client visit >>= fun c => c.next .client calmEnv .timer >>= fun _ =>
      Exec.ok (c.st, c.opened, c.rx.tail, c.rx.head, c.log)) = Exec.ok (.connected, true, 0, 0, visitLog) := by decide +kernel
  obtain ⟨c, h1, h2⟩ := Exec.bind_eq_ok.mp h
  obtain ⟨c', h3, h4⟩ := Exec.bind_eq_ok.mp h2
  injection h4 with h4
  simp only [Prod.mk.injEq] at h4
  exact ⟨c, c', h1, h3, h4⟩

/-- C30, C31 and C32 for this client: it holds link and timer, its notifications are in order, data come after the success, it is ready for the next two
chunks in three pieces, and its timer ends it; then it can connect again. -/
example : ∃ c c' c'' c3, (Conn.create garbage).run .client visit = .ok c ∧ c.link = true ∧ c.timer = true ∧ phase visitLog = some CSt.connected.phase ∧
    (∃ l1 l2, [Act.attempt, .sent helloFrame, .note .connected] = l1 ++ [.note .connected] ++ l2) ∧
    c.run .client (arrivals calmEnv [[0x4D, 0x53], [0x47, 0x46, 10, 0, 0, 0, 1, 2]] ++ (arrivals calmEnv [[0x4D, 0x53, 0x47, 0x46, 9, 0, 0, 0, 3]] ++ [])) = .ok c' ∧
    c'.log = visitLog ++ [.note (.data [0x4D, 0x53, 0x47, 0x46, 10, 0, 0, 0, 1, 2]), .note (.data [0x4D, 0x53, 0x47, 0x46, 9, 0, 0, 0, 3])] ∧
    c.next .client calmEnv .timer = .ok c'' ∧ c''.link = false ∧ c''.next .client calmEnv (.user .connect) = .ok c3 ∧ c3.st = .connecting := by
  obtain ⟨c, c'', h, hn, hs, ho, ht, hh, hl⟩ := visit_runs
  obtain ⟨h1, h2, _, _⟩ := C31_resources_partial _ _ visit_tame c h
  have hph := C32_order_partial _ _ visit_tame c h
  rw [hl, hs] at hph
  have hr : Ready c := ⟨hs, h1.2 (by rw [hs]; decide), ho, ht, hh⟩
  obtain ⟨l1, l2, h3, _⟩ := C32_data_after_success (l := [.attempt, .sent helloFrame, .note .connected]) hph
  obtain ⟨c', h4, _, h5⟩ := C30_stream_partial (r := .client) (e := calmEnv) rfl
    [([[0x4D, 0x53]], [0x47, 0x46, 10, 0, 0, 0, 1, 2]), ([], [0x4D, 0x53, 0x47, 0x46, 9, 0, 0, 0, 3])]
    (by
      intro x hx
      simp only [List.mem_cons, List.not_mem_nil, or_false] at hx
      rcases hx with rfl | rfl <;> exact ⟨by decide, by decide, by decide, by decide⟩) c hr
  obtain ⟨_, _, _, _⟩ := C30_connection_partial (r := .client) (e := calmEnv) rfl c hr [[0x4D, 0x53]] [0x47, 0x46, 10, 0, 0, 0, 1, 2] (by decide) (by decide)
    (by decide) (by decide)
  obtain ⟨h6, h7, _⟩ := C31_ends_idle_partial (e := calmEnv) _ _ visit_tame c h .timer (.timeout (by rw [hs]; decide)) ⟨by decide, by decide, by decide⟩ c'' hn
  obtain ⟨c3, h8, h9, _⟩ := C31_reusable_partial (r := .client) c'' h6 (e := calmEnv) ⟨rfl, rfl, rfl, rfl⟩
  exact ⟨c, c', c'', c3, h, hr.link, h2.2 (by rw [hs]; decide), hph, ⟨l1, l2, h3⟩, h4, by rw [h5, hl]; rfl, hn, h7, h8, h9⟩

/-- Two attempts, the first of them refused. -/
example : [Act.note .error].countP Act.terminal = 1 ∨ Act.closing ∈ [Act.note .error] :=
  (C32_one_end (l1 := []) (l2 := [.note .error]) (l3 := [.sent helloFrame]) (by decide) (by decide)).2.2

/-- A message of nine bytes at a new buffer; a truncated Acknowledge. -/
example : ∃ y b', receive true (.ok [0x4D, 0x53, 0x47, 0x46, 9, 0, 0, 0, 5]) (Buf.create garbage) = .ok y ∧
    handshakeDec .client ((Buf.create garbage).append (ackFrame.take 9)) = .ok ((), b') := by
  obtain ⟨y, h⟩ := C47_framing true (.ok [0x4D, 0x53, 0x47, 0x46, 9, 0, 0, 0, 5]) (Buf.create garbage) rfl
  obtain ⟨b', h'⟩ := C47_ack ((Buf.create garbage).append (ackFrame.take 9)) rfl
  exact ⟨y, b', h, h'⟩

end Uscada.Ua
