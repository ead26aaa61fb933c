import Verif.UaTransportProps
/-!
# OPC UA connections with time

`Verif.UaTransport` leaves open when timers expire.  Here every event carries a time in microseconds, and the time at which the
timer of a connection is due is kept beside the state.  A connection starts its timer when it enters the states that wait for the
hello message and for secured messages, and again after a complete secured message (UaTcpConnectionConnected.cpp:21-25), which is one it has handed to its
channel.

`late` bounds the time from the moment at which a timer is due to the moment at which its handler has run.
-/

namespace Uscada.Ua.Transport

open SM

/-- The server and the times the timers of its connections are due. -/
structure Timed where
  s : Srv
  due : Nat → Nat

/-- `opcUaTcpReceiveTimeout`, UaTcpDefs.hpp:12 -/
def receiveTimeout : Nat := 30000000

/-- When the timer of a connection is due after an event: UaTcpConnection.cpp:161-164, called by
UaTcpConnectionReceiveHello.cpp:12 and UaTcpConnectionConnected.cpp:11, 23. -/
def DueOk (t t' : Timed) (now : Nat) (v : TEv) (k : Nat) : Prop :=
  if (t'.s.conns k).armed = false then True
  else if (t'.s.conns k).st ≠ (t.s.conns k).st ∨ v = .timer k then t'.due k = now + receiveTimeout
  else if v = .linkData k ∧ (t'.s.conns k).log ≠ (t.s.conns k).log then t'.due k = now + receiveTimeout
  else t'.due k = t.due k

/-- No timer is overdue by more than `late`. -/
def Awake (late : Nat) (t : Timed) (now : Nat) : Prop :=
  ∀ k, Pool.valid k → (t.s.conns k).armed = true → now ≤ t.due k + late

/-- An event of the server (UaTcpServer.cpp) at a time. -/
structure Moment where
  at' : Nat
  e : TEnv
  v : TEv

/-- A history: time does not run backwards, timers do not expire early and none is overdue by more than `late`.  Timers can be
had and started. -/
inductive Steps (late : Nat) : Nat → Timed → List Moment → Nat → Timed → Prop
  | nil {last : Nat} {t : Timed} : Steps late last t [] last t
  | cons {last end' : Nat} {t t1 t2 : Timed} {x : Moment} {xs : List Moment} (h1 : last ≤ x.at') (h2 : Awake late t x.at')
      (h3 : Possible t.s x.v) (h4 : ∀ k, x.v = .timer k → t.due k ≤ x.at') (h5 : x.e.timerFree = true ∧ x.e.starts = true)
      (h6 : next t.s x.e x.v = .ok t1.s) (h7 : ∀ k, Pool.valid k → DueOk t t1 x.at' x.v k)
      (h8 : Steps late x.at' t1 xs end' t2) : Steps late last t (x :: xs) end' t2

/-! ## What an event does to the state of a connection -/

/-- The connection has ended or is in this state. -/
def Stays (k : Nat) (st : TSt) (s : Srv) : Prop := (s.conns k).st = .init ∨ (s.conns k).st = st

abbrev Pres (k : Nat) (st : TSt) {α : Type} (m : SM Srv α) : Prop := STri (Stays k st) (Stays k st) m fun _ => Stays k st

section
variable {k j : Nat} {st : TSt} {α β : Type}

theorem pres_bind {m : SM Srv α} {f : α → SM Srv β} (h1 : Pres k st m) (h2 : ∀ a, Pres k st (f a)) : Pres k st (m >>= f) :=
  STri.bind h1 h2

theorem pres_ret {a : α} : Pres k st (pure a : SM Srv α) := STri.ret fun _ h => h

theorem pres_undefined : Pres k st (SM.undefined : SM Srv α) := STri.undefined

theorem pres_throws : Pres k st (SM.throws : SM Srv α) := STri.throws fun _ h => h

theorem pres_lift {e : Exec α} : Pres k st (SM.lift e : SM Srv α) := STri.lift (fun _ _ _ h => h) (fun _ _ h => h)

theorem pres_self : Pres k st (self j) := fun _ h => h

theorem pres_conn {f : Tcp → Tcp} (h : ∀ t, (f t).st = t.st ∨ (f t).st = .init) : Pres k st (conn j f) := by
  intro s hs
  show Stays k st (s.set j (f (s.conns j)))
  unfold Stays Srv.set at *
  simp only
  split
  · rename_i hk
    subst hk
    rcases h (s.conns k) with h | h
    · rw [h]; exact hs
    · exact Or.inl h
  · exact hs

theorem pres_conn_other {f : Tcp → Tcp} (h : j ≠ k) : Pres k st (conn j f) := by
  intro s hs
  show Stays k st (s.set j (f (s.conns j)))
  unfold Stays Srv.set at *
  simp only
  rw [if_neg (fun hh => h hh.symm)]
  exact hs

theorem pres_note {a : TAct} : Pres k st (note j a) := pres_conn fun _ => Or.inl rfl

theorem pres_releaseId : Pres k st (releaseId j) := by
  intro s hs
  unfold releaseId
  cases Pool.release s.ids j <;> first | exact hs | trivial

theorem pres_release : Pres k st (release j) := by
  unfold release
  exact pres_bind (pres_conn fun _ => Or.inl rfl) fun _ => pres_bind pres_note fun _ => pres_releaseId

theorem pres_stopTimer : Pres k st (stopTimer j) := by
  unfold stopTimer
  refine pres_bind pres_self fun t => ?_
  split
  · exact pres_conn fun _ => Or.inl rfl
  · exact pres_undefined

theorem pres_startTimer {e : TEnv} : Pres k st (startTimer j e) := by
  unfold startTimer
  refine pres_bind pres_self fun t => ?_
  split
  · split
    · exact pres_conn fun _ => Or.inl rfl
    · exact pres_throws
  · exact pres_undefined

theorem pres_preaction : Pres k st (receivePreaction j) := pres_conn fun _ => Or.inl rfl

theorem pres_exit {x : TSt} : Pres k st (exit j x) := by
  cases x
  · exact pres_ret
  · exact pres_stopTimer
  · exact pres_stopTimer

theorem pres_toInit : Pres k st (toInit j) := by
  unfold toInit transit
  refine pres_bind pres_self fun t => ?_
  split
  · exact pres_ret
  · exact pres_bind pres_exit fun _ => pres_bind (pres_conn fun _ => Or.inr rfl) fun _ => pres_release

theorem pres_sendReleaseInd : Pres k st (sendReleaseInd j) := by
  unfold sendReleaseInd
  refine pres_bind pres_self fun t => ?_
  split
  · exact pres_ret
  · exact pres_note

theorem pres_fail : Pres k st (fail j) := pres_bind pres_sendReleaseInd fun _ => pres_toInit

theorem pres_linkSend {e : TEnv} {bytes : List UInt8} : Pres k st (linkSend j e bytes) := by
  unfold linkSend
  refine pres_bind pres_self fun t => ?_
  split
  · split
    · exact pres_bind pres_note fun _ => pres_ret
    · exact pres_ret
  · exact pres_undefined

theorem pres_sendSecured {e : TEnv} {a b c f : UInt8} {ch : UInt32} {d : List UInt8} : Pres k st (sendSecured j e a b c f ch d) :=
  pres_bind pres_lift fun _ => pres_linkSend

theorem pres_answered {r : Res} : Pres k st (answered j r) := by
  cases r
  · exact pres_fail
  · exact pres_ret
  · exact pres_fail

theorem pres_onReceive {e : TEnv} {m : Down} : Pres k st (onReceive j e m) := by
  unfold onReceive
  refine pres_bind pres_self fun t => ?_
  split
  · cases m with
    | openRsp c f d =>
      refine pres_bind ?_ fun _ => pres_answered
      exact pres_bind (pres_conn fun _ => Or.inl rfl) fun _ => pres_bind pres_note fun _ => pres_sendSecured
    | closeRsp c f d =>
      refine pres_bind ?_ fun _ => pres_answered
      refine pres_bind pres_self fun t => ?_
      split
      · exact pres_sendSecured
      · exact pres_ret
    | sendReq c f d =>
      refine pres_bind ?_ fun _ => pres_answered
      refine pres_bind pres_self fun t => ?_
      split
      · exact pres_sendSecured
      · exact pres_ret
    | releaseReq => exact pres_bind pres_note fun _ => pres_toInit
  · exact pres_ret

theorem pres_other_transit {x : TSt} {m : SM Srv Unit} (h : j ≠ k) (hm : Pres k st m) : Pres k st (transit j x m) := by
  unfold transit
  refine pres_bind pres_self fun t => ?_
  split
  · exact pres_ret
  · exact pres_bind pres_exit fun _ => pres_bind (pres_conn_other h) fun _ => hm

theorem pres_other_acceptLink {e : TEnv} (h : j ≠ k) : Pres k st (onAcceptLink j e) := by
  unfold onAcceptLink
  refine pres_bind pres_self fun t => ?_
  split
  · unfold acceptLink allocTimer
    refine pres_bind (pres_conn_other h) fun _ => pres_bind ?_ fun _ => pres_bind pres_note fun _ =>
      pres_other_transit h (pres_bind pres_startTimer fun _ => pres_preaction)
    split
    · exact pres_conn_other h
    · exact pres_throws
  · exact pres_ret

theorem pres_receiveRx {e : TEnv} : Pres k st (receiveRx j e) := by
  unfold receiveRx
  refine pres_bind pres_self fun t => ?_
  split
  · exact pres_bind pres_lift fun _ => pres_bind (pres_conn fun _ => Or.inl rfl) fun _ => pres_ret
  · split
    · exact pres_ret
    · exact pres_undefined

theorem pres_receiveHello {e : TEnv} : Pres k st (receiveHello j e) := by
  unfold receiveHello
  refine pres_bind pres_receiveRx fun x => ?_
  cases x
  · exact pres_ret
  · unfold decodeHello sendAcknowledge
    refine pres_bind (pres_bind pres_self fun t => ?_) fun _ => pres_bind pres_lift fun _ => pres_linkSend
    split
    · exact pres_conn fun _ => Or.inl rfl
    · exact pres_bind (pres_conn fun _ => Or.inl rfl) fun _ => pres_throws
    · exact pres_lift
    · exact pres_undefined
  · exact pres_ret

theorem pres_forward {ty : SecType} {h : UaMessageHeader} : Pres k st (forward j ty h) := by
  unfold forward
  refine pres_bind pres_self fun t => ?_
  cases ty
  · dsimp only
    split
    · exact pres_bind pres_lift fun _ => pres_bind pres_note fun _ => pres_ret
    · exact pres_ret
  · exact pres_bind pres_lift fun _ => pres_bind pres_note fun _ => pres_ret
  · dsimp only
    split
    · exact pres_bind pres_lift fun _ => pres_bind pres_note fun _ => pres_ret
    · exact pres_ret
  · exact pres_ret

theorem pres_receiveSecured {e : TEnv} : Pres k st (receiveSecuredMessage j e) := by
  unfold receiveSecuredMessage
  refine pres_bind pres_receiveRx fun x => ?_
  cases x
  · exact pres_ret
  · exact pres_bind pres_self fun t => pres_bind pres_lift fun _ => pres_bind (pres_conn fun _ => Or.inl rfl) fun _ =>
      pres_forward
  · exact pres_ret

theorem pres_other_data {e : TEnv} (h : j ≠ k) : Pres k st (onData j e) := by
  unfold onData
  refine pres_bind pres_self fun t => ?_
  split
  · exact pres_ret
  · refine pres_bind pres_receiveHello fun x => ?_
    cases x
    · exact pres_ret
    · exact pres_other_transit h (pres_bind pres_startTimer fun _ => pres_preaction)
    · exact pres_toInit
  · refine pres_bind pres_receiveSecured fun x => ?_
    cases x
    · exact pres_ret
    · exact pres_bind pres_startTimer fun _ => pres_preaction
    · exact pres_fail

theorem pres_onTimer : Pres k st (onTimer j) := by
  unfold onTimer
  refine pres_bind (pres_conn fun _ => Or.inl rfl) fun _ => pres_bind pres_self fun t => ?_
  split
  · exact pres_ret
  · exact pres_toInit
  · exact pres_fail

end

/-- Without data for it, an event leaves a connection in its state or ends it. -/
theorem next_stays {s s' : Srv} {e : TEnv} {v : TEv} {k : Nat} (h : s.Inv L A) (hk : Pool.valid k)
    (hst : (s.conns k).st ≠ .init) (hv : v ≠ .linkData k) (hn : next s e v = .ok s') : Stays k (s.conns k).st s' := by
  have h0 : Stays k (s.conns k).st s := Or.inr rfl
  have key : SPost (Stays k (s.conns k).st) (fun _ => Stays k (s.conns k).st) (event e v s) := by
    cases v with
    | accept =>
      obtain ⟨l, h1, h2⟩ := h
      have hl : k ∉ l := fun hm => hst ((h2 k hk).1 hm).st
      show SPost _ _ (onAccept e s)
      have hr : ∀ s2 r, allocId s = (.ok r, s2) → Stays k (s.conns k).st s2 ∧ r ≠ some k := by
        intro s2 r hr
        unfold allocId at hr
        cases l with
        | nil =>
          simp only [h1.alloc_nil, Prod.mk.injEq, Exec.ok.injEq] at hr
          rw [← hr.2, ← hr.1]
          exact ⟨h0, by simp⟩
        | cons j l =>
          obtain ⟨q, hq, -⟩ := h1.alloc_cons
          simp only [hq, Prod.mk.injEq, Exec.ok.injEq] at hr
          rw [← hr.2, ← hr.1]
          exact ⟨h0, by rintro ⟨⟩; exact hl (by simp)⟩
      have hx : STri (Stays k (s.conns k).st) (fun x => x = s) (onAccept e) (fun _ => Stays k (s.conns k).st) := by
        unfold onAccept
        refine STri.bind (R := fun _ x => x = s) ?_ fun _ => STri.bind
          (R := fun r x => Stays k (s.conns k).st x ∧ r ≠ some k) ?_ fun r => ?_
        · unfold takeLink
          split
          · exact STri.ret fun _ h => h
          · exact STri.throws fun _ h => h ▸ h0
        · rintro x rfl
          cases ha : allocId x with
          | mk o s2 =>
            unfold allocId at ha
            cases o with
            | ok r => exact hr s2 r (by unfold allocId; exact ha)
            | throws =>
              cases hp : Pool.alloc x.ids <;> simp only [hp, Prod.mk.injEq] at ha <;> first | exact ha.2 ▸ h0 | cases ha.1
            | abort => first | trivial | (cases hp : Pool.alloc x.ids <;> simp only [hp, Prod.mk.injEq] at ha <;> first | exact ha.2 ▸ h0 | cases ha.1)
            | ub => trivial
        · cases r with
          | none => exact STri.ret fun _ h => h.1
          | some j =>
            by_cases hj : j = k
            · exact fun x hx => absurd (congrArg some hj) hx.2
            · exact (pres_other_acceptLink hj).weaken (fun _ h => h.1) (fun _ _ h => h)
      exact hx s rfl
    | linkData j =>
      have hj : j ≠ k := fun hj => hv (by rw [hj])
      exact pres_other_data hj s h0
    | linkError j => exact pres_conn (f := fun t => { t with opened := false }) (fun _ => Or.inl rfl) s h0
    | timer j => exact pres_onTimer s h0
    | down j m =>
      show SPost _ _ ((if Pool.valid j then onReceive j e m else undefined) s)
      split
      · exact pres_onReceive s h0
      · trivial
  rcases settle_ok key hn with h | ⟨_, h⟩ <;> exact h

/-! ## What data do to their connection -/

/-- A complete message has come: the hello message, or a secured message that was handed to the channel. -/
def Heard (t t' : Tcp) : Prop :=
  (t.st = .hello ∧ t'.st = .connected) ∨ (t.st = .connected ∧ t'.st = .connected ∧ ∃ u : Up, t'.log = t.log ++ [.up u])

/-- The possible outcomes of data. -/
def Outcome (t t' : Tcp) : Prop := t'.st = .init ∨ (t'.st = t.st ∧ t'.log = t.log) ∨ Heard t t'

section
variable {k : Nat} {t0 : Tcp} {T : Srv → Prop}

/-- `P` of connection `k` -/
abbrev Of (k : Nat) (P : Tcp → Prop) (s : Srv) : Prop := P (s.conns k)

abbrev Same (t0 t : Tcp) : Prop := t.st = t0.st ∧ t.log = t0.log

theorem of_conn {P Q : Tcp → Prop} {f : Tcp → Tcp} (h : ∀ t, P t → Q (f t)) : STri T (Of k P) (conn k f) (fun _ => Of k Q) := by
  intro s hs
  show Q ((s.set k (f (s.conns k))).conns k)
  simp only [Srv.set, if_pos]
  exact h _ hs

theorem of_conn_at {P' : Srv → Prop} {P Q : Tcp → Prop} {f : Tcp → Tcp} (hp : ∀ s, P' s → P (s.conns k))
    (h : ∀ t, P t → Q (f t)) : STri T P' (conn k f) (fun _ => Of k Q) := fun s hs => of_conn h s (hp s hs)

theorem of_self {P : Tcp → Prop} {g : Tcp → SM Srv α} {Q : α → Srv → Prop}
    (h : ∀ t, P t → STri T (fun s => P (s.conns k) ∧ s.conns k = t) (g t) Q) : STri T (Of k P) (self k >>= g) Q := by
  intro s hs
  exact h (s.conns k) hs s ⟨hs, rfl⟩

theorem of_toInit {st : TSt} : STri (Of k fun t => t.st = .init) (Of k fun t => t.st = st) (toInit k)
    (fun _ => Of k fun t => t.st = .init) := by
  unfold toInit transit
  refine of_self fun t ht => ?_
  split
  · rename_i h
    exact STri.ret fun s hs => by show (s.conns k).st = _; rw [hs.2]; exact h
  · refine STri.bind (R := fun _ _ => True) ?_ fun _ => ?_
    · have hstop : STri (Of k fun t => t.st = .init) (fun s => (s.conns k).st = st ∧ s.conns k = t) (stopTimer k)
          (fun _ _ => True) := by
        intro s _
        simp only [stopTimer, bind_run, self, andThen]
        split <;> trivial
      cases t.st
      · exact STri.ret fun _ _ => trivial
      · exact hstop
      · exact hstop
    · refine STri.bind (R := fun _ => Of k fun t => t.st = .init) ?_ fun _ => ?_
      · exact of_conn_at (P := fun _ => True) (fun _ _ => trivial) (fun _ _ => rfl)
      · intro s hs
        have := pres_release (k := k) (j := k) (st := .init) s (Or.inl hs)
        cases hr : release k s with
        | mk o s2 =>
          rw [hr] at this
          cases o with
          | ok a => exact Or.elim this id id
          | throws => exact Or.elim this id id
          | abort => trivial
          | ub => trivial

theorem of_fail {st : TSt} : STri (Of k fun t => t.st = .init) (Of k fun t => t.st = st) (fail k)
    (fun _ => Of k fun t => t.st = .init) := by
  unfold fail
  refine STri.bind (R := fun _ => Of k fun t => t.st = st) ?_ fun _ => of_toInit
  unfold sendReleaseInd
  refine of_self fun t ht => ?_
  split
  · exact STri.ret fun _ h => h.1
  · exact of_conn_at (P := fun t => t.st = st) (fun _ h => h.1) (fun _ h => h)

theorem of_receiveRx {e : TEnv} : STri (Of k (Same t0)) (Of k (Same t0)) (receiveRx k e) (fun _ => Of k (Same t0)) := by
  unfold receiveRx
  refine of_self fun t ht => ?_
  split
  · refine STri.bind (R := fun _ => Of k (Same t0)) (STri.lift (fun _ _ _ h => h.1) (fun _ _ h => h.1)) fun _ => ?_
    exact STri.bind (R := fun _ => Of k (Same t0)) (of_conn fun _ h => h) fun _ => STri.ret fun _ h => h
  · split
    · exact STri.ret fun _ h => h.1
    · exact STri.undefined

theorem of_lift {e : Exec α} {P : Srv → Prop} : STri P P (SM.lift e : SM Srv α) (fun _ => P) :=
  STri.lift (fun _ _ _ h => h) (fun _ _ h => h)

/-- After `receiveHello`: only an acknowledged hello message counts. -/
theorem of_receiveHello {e : TEnv} : STri (Of k (Same t0)) (Of k (Same t0)) (receiveHello k e)
    (fun r s => if r = .done then (s.conns k).st = t0.st else Same t0 (s.conns k)) := by
  unfold receiveHello
  refine STri.bind of_receiveRx fun x => ?_
  cases x
  · exact STri.ret fun _ h => h
  · refine STri.bind (R := fun _ => Of k (Same t0)) ?_ fun _ => ?_
    · unfold decodeHello
      refine of_self fun t ht => ?_
      split
      · exact of_conn_at (P := Same t0) (fun _ h => h.1) (fun _ h => h)
      · refine STri.bind (R := fun _ => Of k (Same t0)) ?_ fun _ => STri.throws fun _ h => h
        exact of_conn_at (P := Same t0) (fun _ h => h.1) (fun _ h => h)
      · exact of_lift.weaken (fun _ h => h.1) (fun _ _ h => h)
      · exact STri.undefined
    · unfold sendAcknowledge
      refine STri.bind of_lift fun f => ?_
      unfold linkSend
      refine of_self fun t ht => ?_
      split
      · split
        · refine STri.bind (R := fun _ => Of k fun t => t.st = t0.st) ?_ fun _ => STri.ret fun _ h => h
          exact of_conn_at (P := Same t0) (fun _ h => h.1) (fun _ h => h.1)
        · exact STri.ret fun _ h => h.1
      · exact STri.undefined
  · exact STri.ret fun _ h => h

/-- After `receiveSecuredMessage`: only a message handed up counts. -/
theorem of_receiveSecured {e : TEnv} : STri (Of k (Same t0)) (Of k (Same t0)) (receiveSecuredMessage k e)
    (fun r s => if r = .done then (s.conns k).st = t0.st ∧ ∃ u : Up, (s.conns k).log = t0.log ++ [.up u]
      else Same t0 (s.conns k)) := by
  unfold receiveSecuredMessage
  refine STri.bind of_receiveRx fun x => ?_
  cases x
  · exact STri.ret fun _ h => h
  · refine of_self fun t ht => ?_
    refine STri.bind (R := fun _ => Of k (Same t0)) (of_lift.weaken (fun _ h => h.1) (fun _ _ h => h)) fun r => ?_
    refine STri.bind (R := fun _ => Of k (Same t0)) (of_conn fun _ h => h) fun _ => ?_
    have hup : ∀ u : Exec (List UInt8), ∀ g : List UInt8 → Up, STri (Of k (Same t0)) (Of k (Same t0))
        (do let d ← lift u; note k (.up (g d)); pure Res.done)
        (fun r s => if r = .done then (s.conns k).st = t0.st ∧ ∃ u : Up, (s.conns k).log = t0.log ++ [.up u]
          else Same t0 (s.conns k)) := by
      intro u g
      refine STri.bind of_lift fun d => ?_
      refine STri.bind (R := fun _ => Of k fun t => t.st = t0.st ∧ ∃ u : Up, t.log = t0.log ++ [TAct.up u]) ?_ fun _ =>
        STri.ret fun _ h => h
      exact of_conn fun t h => ⟨h.1, g d, by show t.log ++ _ = _; rw [h.2]⟩
    unfold forward
    refine of_self fun t' _ => ?_
    cases secType t.rx
    · dsimp only
      split
      · exact (hup _ _).weaken (fun _ h => h.1) (fun _ _ h => h)
      · exact STri.ret fun _ h => h.1
    · exact (hup _ _).weaken (fun _ h => h.1) (fun _ _ h => h)
    · dsimp only
      split
      · exact (hup _ _).weaken (fun _ h => h.1) (fun _ _ h => h)
      · exact STri.ret fun _ h => h.1
    · exact STri.ret fun _ h => h.1
  · exact STri.ret fun _ h => h

theorem of_startTimer {e : TEnv} (he : e.starts = true) {P : Tcp → Prop} (h : ∀ t, P t → P { t with armed := true }) :
    STri T (Of k P) (startTimer k e) (fun _ => Of k P) := by
  unfold startTimer
  refine of_self fun t ht => ?_
  split
  · exact of_conn_at (P := P) (fun _ h => h.1) h
  · exact STri.undefined

theorem of_onData {e : TEnv} (he : e.starts = true) :
    STri (Of k (Outcome t0)) (Of k fun t => t = t0) (onData k e) (fun _ => Of k (Outcome t0)) := by
  have wk : ∀ {α : Type} {P P' T' : Srv → Prop} {m : SM Srv α} {Q Q' : α → Srv → Prop}, STri T' P m Q →
      (∀ s, P' s → P s) → (∀ s, T' s → Of k (Outcome t0) s) → (∀ a s, Q a s → Q' a s) → STri (Of k (Outcome t0)) P' m Q' := by
    intro α P P' T' m Q Q' h hp ht hq s hs
    have := h s (hp s hs)
    cases hm : m s with
    | mk o s2 =>
      rw [hm] at this
      cases o with
      | ok a => exact hq _ _ this
      | throws => exact ht _ this
      | abort => trivial
      | ub => trivial
  unfold onData
  refine of_self fun t ht => ?_
  subst ht
  cases hst : t.st with
  | init => exact STri.ret fun s hs => Or.inl (by rw [hs.2]; exact hst)
  | hello =>
    refine STri.bind (wk of_receiveHello (fun s hs => ⟨by rw [hs.2], by rw [hs.2]⟩) (fun s h => Or.inr (Or.inl h))
      (fun _ _ h => h)) fun x => ?_
    cases x
    · exact STri.ret fun s h => Or.inr (Or.inl h)
    · refine wk (T' := fun _ => False) (P := Of k fun t' => t'.st = .hello) (Q := fun _ => Of k fun t' => t'.st = .connected)
        ?_ (fun s h => by rw [← hst]; exact h) (fun _ h => h.elim) (fun _ s h => Or.inr (Or.inr (Or.inl ⟨hst, h⟩)))
      unfold toConnected transit
      refine of_self fun t' ht' => ?_
      rw [if_neg (by rw [ht']; simp)]
      refine STri.bind (R := fun _ _ => True) ?_ fun _ => ?_
      · rw [ht']
        intro s _
        simp only [exit, stopTimer, bind_run, self, andThen]
        split <;> trivial
      · refine STri.bind (R := fun _ => Of k fun t' => t'.st = .connected)
          (of_conn_at (P := fun _ => True) (fun _ _ => trivial) (fun _ _ => rfl)) fun _ => ?_
        exact STri.bind (of_startTimer he fun _ h => h) fun _ => of_conn fun _ h => h
    · exact wk of_toInit (fun s h => h.1) (fun s h => Or.inl h) (fun _ s h => Or.inl h)
  | connected =>
    refine STri.bind (wk of_receiveSecured (fun s hs => ⟨by rw [hs.2], by rw [hs.2]⟩) (fun s h => Or.inr (Or.inl h))
      (fun _ _ h => h)) fun x => ?_
    cases x
    · exact STri.ret fun s h => Or.inr (Or.inl h)
    · refine wk (T' := fun _ => False) (P := Of k fun t' => t'.st = .connected ∧ ∃ u : Up, t'.log = t.log ++ [.up u])
        (Q := fun _ => Of k fun t' => t'.st = .connected ∧ ∃ u : Up, t'.log = t.log ++ [.up u])
        ?_ (fun s h => ⟨h.1.trans hst, h.2⟩) (fun _ h => h.elim) (fun _ s h => Or.inr (Or.inr (Or.inr ⟨hst, h⟩)))
      exact STri.bind (of_startTimer he fun _ h => h) fun _ => of_conn fun _ h => h
    · exact wk of_fail (fun s h => h.1) (fun s h => Or.inl h) (fun _ s h => Or.inl h)

end

theorem next_data {s s' : Srv} {e : TEnv} {k : Nat} (he : e.starts = true) (hn : next s e (.linkData k) = .ok s') :
    Outcome (s.conns k) (s'.conns k) := by
  rcases settle_ok (of_onData he s rfl) hn with h | ⟨_, h⟩ <;> exact h

/-! ## The claim -/

/-- The events without the times. -/
def plain (xs : List Moment) : List (TEnv × TEv) := xs.map fun x => (x.e, x.v)

theorem Steps.reach {late last end' : Nat} {t t2 : Timed} {xs : List Moment} (h : Steps late last t xs end' t2) :
    ∀ {m : Nat → Mem} {evs : List (TEnv × TEv)}, Srv.Reach m evs t.s → Srv.Reach m (evs ++ plain xs) t2.s := by
  induction h with
  | nil => intro m evs h; simpa [plain] using h
  | @cons last end' t t1 t2 x xs h1 h2 h3 h4 h5 h6 h7 h8 ih =>
    intro m evs h
    have := ih (.step h h3 h6)
    simpa [plain] using this

theorem Steps.orderly {late last end' : Nat} {t t2 : Timed} {xs : List Moment} (h : Steps late last t xs end' t2) :
    ∀ x ∈ plain xs, x.1.timerFree = true ∧ x.1.starts = true := by
  induction h with
  | nil => simp [plain]
  | @cons last end' t t1 t2 x xs h1 h2 h3 h4 h5 h6 h7 h8 ih =>
    intro y hy
    rcases List.mem_cons.1 hy with hy | hy
    · subst hy; exact h5
    · exact ih y hy

/-- What holds of a timed state at time `now`. -/
structure Sound (t : Timed) (now : Nat) : Prop where
  inv : t.s.Inv False True
  due : ∀ k, Pool.valid k → (t.s.conns k).armed = true → t.due k ≤ now + receiveTimeout

theorem inv_armed {s : Srv} (h : s.Inv False True) {k : Nat} (hk : Pool.valid k) :
    (s.conns k).armed = true ↔ (s.conns k).st ≠ .init := by
  rcases inv_around h hk with ⟨_, _, _, _, _, h' | h'⟩ | h'
  · exact ⟨fun _ => h'.st, fun _ => h'.armed trivial⟩
  · exact h'.1.elim
  · rw [h'.armed, h'.st]; simp

theorem envOk_of {e : TEnv} (h : e.timerFree = true ∧ e.starts = true) : EnvOk False True e :=
  ⟨fun hf => (by rw [h.1] at hf; cases hf), fun _ => h.2⟩

theorem Sound.step {t t1 : Timed} {last : Nat} {x : Moment} (h : Sound t last) (h1 : last ≤ x.at') (h3 : Possible t.s x.v)
    (h5 : x.e.timerFree = true ∧ x.e.starts = true) (h6 : next t.s x.e x.v = .ok t1.s)
    (h7 : ∀ k, Pool.valid k → DueOk t t1 x.at' x.v k) : Sound t1 x.at' := by
  have hi := next_keeps (envOk_of h5) h.inv h3 h6
  refine ⟨hi, fun k hk ha => ?_⟩
  have hd := h7 k hk
  unfold DueOk at hd
  rw [if_neg (by rw [ha]; simp)] at hd
  have hold : (t1.s.conns k).st = (t.s.conns k).st → t.due k ≤ last + receiveTimeout := fun he =>
    h.due k hk ((inv_armed h.inv hk).2 (he ▸ (inv_armed hi hk).1 ha))
  split at hd
  · omega
  · rename_i hc
    have := hold (by simp only [not_or, Classical.not_not] at hc; exact hc.1)
    split at hd
    · omega
    · omega

theorem Steps.sound {late last end' : Nat} {t t2 : Timed} {xs : List Moment} (h : Steps late last t xs end' t2)
    (hs : Sound t last) : Sound t2 end' := by
  induction h with
  | nil => exact hs
  | cons h1 h2 h3 h4 h5 h6 h7 h8 ih => exact ih (hs.step h1 h3 h5 h6 h7)

/-- A moment at which connection `k` hears a complete message. -/
def HeardAt (k : Nat) (t t' : Timed) (v : TEv) : Prop := v = .linkData k ∧ Heard (t.s.conns k) (t'.s.conns k)

/-- By `limit` connection `k` has ended or heard a complete message. -/
def Settled (late last : Nat) (t : Timed) (ys : List Moment) (end' : Nat) (t2 : Timed) (k limit : Nat) : Prop :=
  ∃ ys1 x ys2 mid t1 t1', ys = ys1 ++ x :: ys2 ∧ Steps late last t ys1 mid t1 ∧ next t1.s x.e x.v = .ok t1'.s ∧
    Steps late x.at' t1' ys2 end' t2 ∧ x.at' ≤ limit ∧ ((t1'.s.conns k).st = .init ∨ HeardAt k t1 t1' x.v)

theorem ends {late last end' : Nat} {t t2 : Timed} {ys : List Moment} (h : Steps late last t ys end' t2) :
    ∀ {m : Nat → Mem} {evs : List (TEnv × TEv)} {D now k : Nat}, Srv.Reach m evs t.s → t.s.Inv False True → Pool.valid k →
    (t.s.conns k).st ≠ .init → t.due k ≤ D → Awake late t2 now → D + late < now →
    Settled late last t ys end' t2 k (D + late) := by
  induction h with
  | nil =>
    intro m evs D now k _ hi hk hst hd hw hnow
    have := hw k hk ((inv_armed hi hk).2 hst)
    omega
  | @cons last end' t t1 t2 x xs h1 h2 h3 h4 h5 h6 h7 h8 ih =>
    intro m evs D now k hr hi hk hst hd hw hnow
    have ha := (inv_armed hi hk).2 hst
    have hat : x.at' ≤ D + late := Nat.le_trans (h2 k hk ha) (by omega)
    have hin := next_keeps (envOk_of h5) hi h3 h6
    by_cases he : (t1.s.conns k).st = .init
    · exact ⟨[], x, xs, last, t, t1, rfl, .nil, h6, h8, hat, .inl he⟩
    by_cases hh : HeardAt k t t1 x.v
    · exact ⟨[], x, xs, last, t, t1, rfl, .nil, h6, h8, hat, .inr hh⟩
    have hsame : (t1.s.conns k).st = (t.s.conns k).st ∧ (x.v = .linkData k → (t1.s.conns k).log = (t.s.conns k).log) := by
      by_cases hv : x.v = .linkData k
      · have ho := next_data h5.2 (hv ▸ h6)
        rcases ho with ho | ho | ho
        · exact absurd ho he
        · exact ⟨ho.1, fun _ => ho.2⟩
        · exact absurd ⟨hv, ho⟩ hh
      · exact ⟨(next_stays hi hk hst hv h6).resolve_left he, fun h => absurd h hv⟩
    have htm : x.v ≠ .timer k := by
      intro hv'
      obtain ⟨s', hs', hst', -⟩ := C36_timeout_ends m evs t.s hr k hk ha x.e
      rw [hv'] at h6
      rw [h6] at hs'
      cases hs'
      exact he hst'
    have hdue := h7 k hk
    unfold DueOk at hdue
    rw [if_neg (by rw [(inv_armed hin hk).2 he]; simp), if_neg (by simp [hsame.1, htm]),
      if_neg (fun hc => hc.2 (hsame.2 hc.1))] at hdue
    obtain ⟨ys1, y, ys2, mid, t3, t4, e1, e2, e3⟩ := ih (.step hr h3 h6) hin hk he (by omega : t1.due k ≤ D) hw hnow
    exact ⟨x :: ys1, y, ys2, mid, t3, t4, by rw [e1]; rfl, .cons h1 h2 h3 h4 h5 h6 h7 e2, e3⟩

/-- C76: a connection of an OPC UA client hears a complete message or is released within 30 s and the delay of its timer,
whatever happens meanwhile to it and to other connections: every history that reaches past this time passes such a moment.  Bytes
that complete no message do not keep a connection alive. -/
theorem C76_connection_ends (m : Nat → Mem) (late last end' now : Nat) (t0 t t2 : Timed) (xs ys : List Moment)
    (h0 : Srv.create m = .ok t0.s) (hx : Steps late 0 t0 xs last t) (hy : Steps late last t ys end' t2) (k : Nat)
    (hk : Pool.valid k) (hst : (t.s.conns k).st ≠ .init) (hw : Awake late t2 now) (hnow : last + 30000000 + late < now) :
    Settled late last t ys end' t2 k (last + 30000000 + late) := by
  have hs0 : Sound t0 0 := by
    refine ⟨create_keeps h0, fun k hk ha => absurd ((inv_armed (create_keeps h0) hk).1 ha) ?_⟩
    obtain ⟨q, h1, h2⟩ := Pool.free_create
    simp only [Srv.create, h1, Exec.ok_bind, Exec.pure_eq, Exec.ok.injEq] at h0
    rw [← h0]
    simp [Tcp.create]
  have hs := hx.sound hs0
  exact ends hy (hx.reach (.create h0)) hs.inv hk hst (hs.due k hk ((inv_armed hs.inv hk).2 hst)) hw hnow

/-! ## An example -/

/-- The timers after an event, as `DueOk` asks. -/
def dueAfter (t : Timed) (s' : Srv) (now : Nat) (v : TEv) (k : Nat) : Nat :=
  if (s'.conns k).st ≠ (t.s.conns k).st ∨ v = .timer k then now + receiveTimeout
  else if v = .linkData k ∧ (s'.conns k).log ≠ (t.s.conns k).log then now + receiveTimeout
  else t.due k

def awakeAt (late : Nat) (t : Timed) (now : Nat) : Bool :=
  (List.range' 1 poolCap).all fun k => !(t.s.conns k).armed || decide (now ≤ t.due k + late)

theorem awake_of {late now : Nat} {t : Timed} (h : awakeAt late t now = true) : Awake late t now := by
  intro k hk ha
  have := List.all_eq_true.1 h k (List.mem_range'_1.2 ⟨hk.1, by have := hk.2; omega⟩)
  simpa [ha] using this

def onTime (t : Timed) (x : Moment) : Bool :=
  match x.v with
  | .timer k => decide (t.due k ≤ x.at')
  | _ => true

/-- A history carried out, `none` if it is not one. -/
def play (late : Nat) : Nat → Timed → List Moment → Option (Nat × Timed)
  | last, t, [] => some (last, t)
  | last, t, x :: xs =>
    if last ≤ x.at' ∧ awakeAt late t x.at' = true ∧ Possible t.s x.v ∧ onTime t x = true ∧ x.e.timerFree = true ∧
        x.e.starts = true then
      match next t.s x.e x.v with
      | .ok s' => play late x.at' ⟨s', dueAfter t s' x.at' x.v⟩ xs
      | _ => none
    else none

theorem play_steps {late : Nat} {xs : List Moment} : ∀ {last end' : Nat} {t t2 : Timed},
    play late last t xs = some (end', t2) → Steps late last t xs end' t2 := by
  induction xs with
  | nil => intro last end' t t2 h; simp only [play, Option.some.injEq, Prod.mk.injEq] at h; rw [← h.1, ← h.2]; exact .nil
  | cons x xs ih =>
    intro last end' t t2 h
    unfold play at h
    split at h
    · rename_i hc
      obtain ⟨c1, c2, c3, c4, c5, c6⟩ := hc
      cases hn : next t.s x.e x.v with
      | ok s' =>
        simp only [hn] at h
        refine .cons (t1 := ⟨s', dueAfter t s' x.at' x.v⟩) c1 (awake_of c2) c3 (fun k hv => ?_) ⟨c5, c6⟩ hn (fun k _ => ?_) (ih h)
        · unfold onTime at c4
          rw [hv] at c4
          exact of_decide_eq_true c4
        · unfold DueOk dueAfter
          dsimp only
          repeat' split
          all_goals first | trivial | rfl | simp_all
      | throws => simp [hn] at h
      | abort => simp [hn] at h
      | ub => simp [hn] at h
    · cases h

/-- The client of `talk` opens its channel within a second and then sends single bytes of a message every eight seconds; 30 s after
its last complete message the timer expires. -/
def drip : List Moment :=
  [⟨100000, calm, .accept⟩, ⟨200000, { calm with rx := .ok helloFrame }, .linkData 1⟩,
   ⟨300000, { calm with rx := .ok (chunk .opn 0x46 0 [1, 2, 3]) }, .linkData 1⟩, ⟨400000, calm, .down 1 (.openRsp 7 0x46 [4, 5])⟩,
   ⟨8000000, { calm with rx := .ok [0x4D] }, .linkData 1⟩, ⟨16000000, { calm with rx := .ok [0x53] }, .linkData 1⟩,
   ⟨24000000, { calm with rx := .ok [0x47] }, .linkData 1⟩]

/-- State, timer and due time of connection 1 after a history. -/
def clock (late : Nat) (xs : List Moment) : Option (TSt × Bool × Nat) :=
  match Srv.create fun _ => garbage with
  | .ok s => (play late 0 ⟨s, fun _ => 0⟩ xs).map fun y => ((y.2.s.conns 1).st, (y.2.s.conns 1).armed, y.2.due 1)
  | _ => none

/-- The bytes do not move the timer, which ends the connection; the connection does not see the time 30.400001 s connected if
timers are at most 0.1 s late, and a handler at most 0.1 s late is still in time. -/
example : clock 100000 drip = some (.connected, true, 30300000) ∧
    clock 100000 (drip ++ [⟨30400000, calm, .timer 1⟩]) = some (.init, false, 60400000) ∧
    clock 100000 (drip ++ [⟨30400001, calm, .timer 1⟩]) = none ∧ clock 100000 (drip ++ [⟨30299999, calm, .timer 1⟩]) = none := by
  decide +kernel

/-- A complete message moves the timer. -/
example : clock 0 (drip ++ [⟨25000000, { calm with rx := .ok ((chunk .msg 0x46 7 [8]).drop 3) }, .linkData 1⟩]) =
    some (.connected, true, 55000000) := by decide +kernel

end Uscada.Ua.Transport
