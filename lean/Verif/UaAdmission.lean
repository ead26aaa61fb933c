import Verif.UaFoot

/-!
# C96: every socket that is accepted gets one connection of its own

UaTcpServer.cpp:53-68.  The server creates a link, accepts the socket and takes a connection object from its pool.  The theorems say
which connection object begins to serve the socket, in which state, and that no connection begins for any other reason: the number of
connections that ever began is the number of sockets that were accepted while an object and a timer could be had.
-/

namespace Uscada.Ua.Transport

open SM

/-! ## Specification -/

/-- How often connection `k` has begun to serve a client. -/
def begun (s : Srv) (k : Nat) : Nat := (s.conns k).log.count .accepted

/-- How often the connections of the server have begun to serve clients, all together. -/
def admissions (s : Srv) : Nat := ((List.range' 1 poolCap).map (begun s)).sum

/-- The event is a socket that `accept` has returned and that got a link. -/
def Taken (e : TEnv) (v : TEv) : Prop := v = .accept ∧ e.linkFree = true ∧ e.accepts = true

instance (e : TEnv) (v : TEv) : Decidable (Taken e v) := inferInstanceAs (Decidable (_ ∧ _))

/-- The sockets of a history that were accepted. -/
def sockets (evs : List (TEnv × TEv)) : Nat := evs.countP fun x => decide (Taken x.1 x.2)

/-! ## Operations that begin nothing -/

/-- After the operation every connection has begun as often as before. -/
def Calm {α : Type} (m : SM Srv α) : Prop := ∀ s k, begun (m s).2 k = begun s k

theorem calm_ret {α : Type} {a : α} : Calm (pure a : SM Srv α) := fun _ _ => rfl

theorem calm_undefined {α : Type} : Calm (undefined : SM Srv α) := fun _ _ => rfl

theorem calm_throws {α : Type} : Calm (throws : SM Srv α) := fun _ _ => rfl

theorem calm_lift {α : Type} {x : Exec α} : Calm (lift x : SM Srv α) := fun _ _ => by cases x <;> rfl

theorem calm_self {j : Nat} : Calm (self j) := fun _ _ => rfl

theorem calm_bind {α β : Type} {m : SM Srv α} {f : α → SM Srv β} (hm : Calm m) (hf : ∀ a, Calm (f a)) : Calm (m >>= f) := by
  intro s k
  have h := hm s k
  rw [bind_run]
  cases hx : m s with
  | mk r s' =>
    rw [hx] at h
    cases r with
    | ok a => exact (hf a s' k).trans h
    | throws => exact h
    | abort => exact h
    | ub => exact h

theorem calm_conn {j : Nat} {f : Tcp → Tcp} (h : ∀ t, (f t).log.count .accepted = t.log.count .accepted) : Calm (conn j f) := by
  intro s k
  show ((s.set j (f (s.conns j))).conns k).log.count .accepted = _
  unfold Srv.set begun
  by_cases hk : k = j
  · subst hk; simp [h]
  · simp [hk]

theorem calm_note {j : Nat} {a : TAct} (h : a ≠ .accepted) : Calm (note j a) :=
  calm_conn fun t => by simp [List.count_append, h]

theorem calm_releaseId {j : Nat} : Calm (releaseId j) := by
  intro s k
  unfold releaseId
  cases Pool.release s.ids j <;> rfl

theorem calm_release {j : Nat} : Calm (release j) :=
  calm_bind (calm_conn fun _ => rfl) fun _ => calm_bind (calm_note (by simp)) fun _ => calm_releaseId

theorem calm_startTimer {j : Nat} {e : TEnv} : Calm (startTimer j e) := by
  unfold startTimer
  refine calm_bind calm_self fun t => ?_
  split
  · split
    · exact calm_conn fun _ => rfl
    · exact calm_throws
  · exact calm_undefined

theorem calm_stopTimer {j : Nat} : Calm (stopTimer j) := by
  unfold stopTimer
  refine calm_bind calm_self fun t => ?_
  split
  · exact calm_conn fun _ => rfl
  · exact calm_undefined

theorem calm_exit {j : Nat} {x : TSt} : Calm (exit j x) := by
  cases x
  · exact calm_ret
  · exact calm_stopTimer
  · exact calm_stopTimer

theorem calm_transit {j : Nat} {x : TSt} {m : SM Srv Unit} (hm : Calm m) : Calm (transit j x m) := by
  unfold transit
  refine calm_bind calm_self fun t => ?_
  split
  · exact calm_ret
  · exact calm_bind calm_exit fun _ => calm_bind (calm_conn fun _ => rfl) fun _ => hm

theorem calm_waits {j : Nat} {e : TEnv} {x : TSt} : Calm (transit j x do startTimer j e; receivePreaction j) :=
  calm_transit (calm_bind calm_startTimer fun _ => calm_conn fun _ => rfl)

theorem calm_toInit {j : Nat} : Calm (toInit j) := calm_transit calm_release

theorem calm_sendReleaseInd {j : Nat} : Calm (sendReleaseInd j) := by
  unfold sendReleaseInd
  refine calm_bind calm_self fun t => ?_
  split
  · exact calm_ret
  · exact calm_note (by simp)

theorem calm_fail {j : Nat} : Calm (fail j) := calm_bind calm_sendReleaseInd fun _ => calm_toInit

theorem calm_linkSend {j : Nat} {e : TEnv} {bytes : List UInt8} : Calm (linkSend j e bytes) := by
  unfold linkSend
  refine calm_bind calm_self fun t => ?_
  split
  · split
    · exact calm_bind (calm_note (by simp)) fun _ => calm_ret
    · exact calm_ret
  · exact calm_undefined

theorem calm_sendSecured {j : Nat} {e : TEnv} {a b c f : UInt8} {ch : UInt32} {d : List UInt8} : Calm (sendSecured j e a b c f ch d) :=
  calm_bind calm_lift fun _ => calm_linkSend

theorem calm_answered {j : Nat} {r : Res} : Calm (answered j r) := by
  cases r
  · exact calm_fail
  · exact calm_ret
  · exact calm_fail

theorem calm_onReceive {j : Nat} {e : TEnv} {m : Down} : Calm (onReceive j e m) := by
  unfold onReceive
  refine calm_bind calm_self fun t => ?_
  split
  · cases m with
    | openRsp c f d =>
      refine calm_bind ?_ fun _ => calm_answered
      exact calm_bind (calm_conn fun _ => rfl) fun _ => calm_bind (calm_note (by simp)) fun _ => calm_sendSecured
    | closeRsp c f d =>
      refine calm_bind ?_ fun _ => calm_answered
      refine calm_bind calm_self fun t => ?_
      split
      · exact calm_sendSecured
      · exact calm_ret
    | sendReq c f d =>
      refine calm_bind ?_ fun _ => calm_answered
      refine calm_bind calm_self fun t => ?_
      split
      · exact calm_sendSecured
      · exact calm_ret
    | releaseReq => exact calm_bind (calm_note (by simp)) fun _ => calm_toInit
  · exact calm_ret

theorem calm_receiveRx {j : Nat} {e : TEnv} : Calm (receiveRx j e) := by
  unfold receiveRx
  refine calm_bind calm_self fun t => ?_
  split
  · exact calm_bind calm_lift fun _ => calm_bind (calm_conn fun _ => rfl) fun _ => calm_ret
  · split
    · exact calm_ret
    · exact calm_undefined

theorem calm_decodeHello {j : Nat} : Calm (decodeHello j) := by
  unfold decodeHello
  refine calm_bind calm_self fun t => ?_
  split
  · exact calm_conn fun _ => rfl
  · exact calm_bind (calm_conn fun _ => rfl) fun _ => calm_throws
  · exact calm_lift
  · exact calm_undefined

theorem calm_receiveHello {j : Nat} {e : TEnv} : Calm (receiveHello j e) := by
  unfold receiveHello
  refine calm_bind calm_receiveRx fun x => ?_
  cases x
  case noerror => exact calm_ret
  case error => exact calm_ret
  case done => exact calm_bind calm_decodeHello fun _ => calm_bind calm_lift fun _ => calm_linkSend

theorem calm_forward {j : Nat} {ty : SecType} {h : UaMessageHeader} : Calm (forward j ty h) := by
  unfold forward
  refine calm_bind calm_self fun t => ?_
  cases ty
  · show Calm (if t.assoc = some h.secureChannelId then _ else _)
    split
    · exact calm_bind calm_lift fun _ => calm_bind (calm_note (by simp)) fun _ => calm_ret
    · exact calm_ret
  · exact calm_bind calm_lift fun _ => calm_bind (calm_note (by simp)) fun _ => calm_ret
  · show Calm (if t.assoc = some h.secureChannelId then _ else _)
    split
    · exact calm_bind calm_lift fun _ => calm_bind (calm_note (by simp)) fun _ => calm_ret
    · exact calm_ret
  · exact calm_ret

theorem calm_receiveSecuredMessage {j : Nat} {e : TEnv} : Calm (receiveSecuredMessage j e) := by
  unfold receiveSecuredMessage
  refine calm_bind calm_receiveRx fun x => ?_
  cases x
  case noerror => exact calm_ret
  case error => exact calm_ret
  case done => exact calm_bind calm_self fun _ => calm_bind calm_lift fun _ => calm_bind (calm_conn fun _ => rfl) fun _ => calm_forward

theorem calm_onData {j : Nat} {e : TEnv} : Calm (onData j e) := by
  unfold onData
  refine calm_bind calm_self fun t => ?_
  cases t.st
  case init => exact calm_ret
  case hello =>
    refine calm_bind calm_receiveHello fun x => ?_
    cases x
    case noerror => exact calm_ret
    case done => exact calm_waits
    case error => exact calm_toInit
  case connected =>
    refine calm_bind calm_receiveSecuredMessage fun x => ?_
    cases x
    case noerror => exact calm_ret
    case done => exact calm_bind calm_startTimer fun _ => calm_conn fun _ => rfl
    case error => exact calm_fail

theorem calm_onTimer {j : Nat} : Calm (onTimer j) := by
  unfold onTimer
  refine calm_bind (calm_conn fun _ => rfl) fun _ => calm_bind calm_self fun t => ?_
  cases t.st <;> first | exact calm_ret | exact calm_fail | exact calm_toInit

theorem calm_event {e : TEnv} {v : TEv} (h : v ≠ .accept) : Calm (event e v) := by
  cases v with
  | accept => exact absurd rfl h
  | linkData k => exact calm_onData
  | linkError k => exact calm_conn fun _ => rfl
  | timer k => exact calm_onTimer
  | down k m =>
    show Calm (if Pool.valid k then onReceive k e m else undefined)
    split
    · exact calm_onReceive
    · exact calm_undefined

theorem settled_as {α : Type} {r : Exec α × Srv} {s' : Srv} (h : settle r = .ok s') : s' = r.2 := by
  obtain ⟨x, c⟩ := r
  cases x <;> simp [settle] at h <;> exact h.symm

/-! ## Sockets -/

/-- Connection `t` as it begins to serve a client: in the state that waits for Hello, with the socket, a running timer, an empty
receive buffer and no channel. -/
def fresh (t : Tcp) : Tcp := { t with
  st := .hello, link := true, opened := true, timer := true, armed := true, rx := t.rx.reset, log := t.log ++ [.accepted] }

/-- C96 (refused): a socket that `accept` does not return, or that finds no link, changes nothing, in any state of the server. -/
theorem C96_refused (s : Srv) (e : TEnv) (h : (e.linkFree && e.accepts) = false) : next s e .accept = .ok s := by
  have ht : takeLink e = throws := by
    show (if e.linkFree && e.accepts then _ else _) = _
    rw [h]
    rfl
  show settle ((takeLink e >>= _) s) = _
  rw [ht]
  rfl

/-- The connection that is next in the queue is idle. -/
theorem idle_next {m : Nat → Mem} {evs : List (TEnv × TEv)} {s : Srv} (h : Srv.Reach m evs s) {k : Nat} {l : List Nat}
    (hl : Pool.Free s.ids (k :: l)) : Idle (s.conns k) := by
  have hi : s.Inv True False := reach_inv (fun _ _ => ⟨fun _ => trivial, False.elim⟩) h
  obtain ⟨l', hf, hg⟩ := hi
  refine (hg k (hl.ids k (by simp))).1 ?_
  obtain ⟨q, hq, -⟩ := hl.alloc_cons
  cases l' with
  | nil => rw [hf.alloc_nil] at hq; cases hq
  | cons i l' =>
    obtain ⟨q', hq', -⟩ := hf.alloc_cons
    rw [hq'] at hq
    cases hq
    simp

theorem accept_admits {s : Srv} {e : TEnv} {k : Nat} {q : Queue Nat} (hq : Pool.alloc s.ids = .ok (some k, q)) (h1 : e.linkFree = true)
    (h2 : e.accepts = true) (h3 : e.timerFree = true) (h4 : e.starts = true) (hst : (s.conns k).st = .init) :
    next s e .accept = .ok { ids := q, conns := fun i => if i = k then fresh (s.conns k) else s.conns i } := by
  have ht : takeLink e = pure () := by simp [takeLink, h1, h2]
  have ha : allocId s = (.ok (some k), { s with ids := q }) := by
    unfold allocId
    rw [hq]
  show settle ((takeLink e >>= fun _ => allocId >>= _) s) = _
  rw [ht]
  show settle ((allocId >>= _) s) = _
  rw [bind_ok ha]
  simp only [onAcceptLink, self, bind_run, andThen, hst, acceptLink, conn, SM.modify, allocTimer, h3, if_true, note, toHello, transit, Srv.set,
    startTimer, h4, receivePreaction, exit, settle, fresh]
  simp [bind_run, pure_run, self, andThen, SM.modify]
  funext i
  by_cases hi : i = k <;> simp [hi]

/-- C96 (admitted): a socket that is accepted while a connection object is free (the next in the queue is `k`) and the system calls
succeed is served by connection `k`, which was idle; `k` begins afresh, without anything of its previous client but the log, no other
connection changes, and `k` is not free any more. -/
theorem C96_admitted (m : Nat → Mem) (evs : List (TEnv × TEv)) (s : Srv) (h : Srv.Reach m evs s) (k : Nat) (l : List Nat)
    (hl : Pool.Free s.ids (k :: l)) (e : TEnv) (h1 : e.linkFree = true) (h2 : e.accepts = true) (h3 : e.timerFree = true)
    (h4 : e.starts = true) : ∃ s', next s e .accept = .ok s' ∧ Pool.valid k ∧ (s.conns k).st = .init ∧ (s.conns k).link = false ∧
      (s.conns k).assoc = none ∧ s'.conns k = fresh (s.conns k) ∧ (∀ j, j ≠ k → s'.conns j = s.conns j) ∧ Pool.Free s'.ids l := by
  have hk : Pool.valid k := hl.ids k (by simp)
  obtain ⟨i1, i2, i3, i4, i5, -⟩ := idle_next h hl
  obtain ⟨q, hq, hfq⟩ := hl.alloc_cons
  refine ⟨_, accept_admits hq h1 h2 h3 h4 i1, hk, i1, i2, i5, ?_, fun j hj => ?_, hfq⟩
  · simp
  · simp [hj]

/-- C96 (full): while every connection object serves a client a further socket is accepted and dropped: nothing changes. -/
theorem C96_full (s : Srv) (hl : Pool.Free s.ids []) (e : TEnv) : next s e .accept = .ok s := by
  by_cases h : (e.linkFree && e.accepts) = true
  · have ht : takeLink e = pure () := by
      show (if e.linkFree && e.accepts then _ else _) = _
      rw [h]
      rfl
    have ha : allocId s = (.ok none, s) := by
      unfold allocId
      rw [hl.alloc_nil]
    show settle ((takeLink e >>= fun _ => allocId >>= _) s) = _
    rw [ht]
    show settle ((allocId >>= _) s) = _
    rw [bind_ok ha]
    rfl
  · exact C96_refused s e (by simpa using h)

theorem calm_takeLink {e : TEnv} : Calm (takeLink e) := by
  unfold takeLink
  split
  · exact calm_ret
  · exact calm_throws

theorem calm_allocId : Calm allocId := by
  intro s k
  unfold allocId
  cases Pool.alloc s.ids <;> rfl

/-- Connection `t` with a socket and a timer. -/
def equipped (t : Tcp) : Tcp := { t with link := true, opened := true, timer := true, armed := false, log := t.log ++ [.accepted] }

/-- A socket that is taken over makes its connection begin once, if a timer can be had. -/
theorem onAcceptLink_begun (s : Srv) (e : TEnv) (k : Nat) : (∀ j, j ≠ k → begun (onAcceptLink k e s).2 j = begun s j) ∧
    (begun (onAcceptLink k e s).2 k = begun s k ∨ (s.conns k).st = .init ∧ e.timerFree = true ∧
      begun (onAcceptLink k e s).2 k = begun s k + 1) := by
  by_cases hst : (s.conns k).st = .init
  · by_cases ht : e.timerFree = true
    · have hrun : ∃ s1 : Srv, (∀ j, j ≠ k → begun s1 j = begun s j) ∧ begun s1 k = begun s k + 1 ∧
          onAcceptLink k e s = toHello k e s1 := by
        refine ⟨s.set k (equipped (s.conns k)), fun j hj => by simp [begun, Srv.set, hj], by simp [begun, Srv.set, equipped], ?_⟩
        simp only [onAcceptLink, self, bind_run, andThen, hst, acceptLink, conn, SM.modify, allocTimer, ht, if_true, note, Srv.set, equipped]
        congr 2
        funext i
        by_cases hi : i = k <;> simp [hi]
      obtain ⟨s1, g1, g2, g3⟩ := hrun
      rw [g3]
      have hc : Calm (toHello k e) := calm_waits
      exact ⟨fun j hj => (hc s1 j).trans (g1 j hj), Or.inr ⟨hst, ht, (hc s1 k).trans g2⟩⟩
    · have hc : Calm (onAcceptLink k e) := by
        unfold onAcceptLink
        refine calm_bind calm_self fun t => ?_
        cases t.st
        case init =>
          have ht' : allocTimer k e = throws := by simp [allocTimer, ht]
          rw [ht']
          exact calm_bind (calm_conn fun _ => rfl) fun _ => fun _ _ => rfl
        case hello => exact calm_ret
        case connected => exact calm_ret
      exact ⟨fun j _ => hc s j, Or.inl (hc s k)⟩
  · have hc : ∀ j, begun (onAcceptLink k e s).2 j = begun s j := by
      intro j
      unfold onAcceptLink
      rw [bind_run]
      show begun (andThen (Exec.ok (s.conns k), s) _).2 j = _
      cases hx : (s.conns k).st
      · exact absurd hx hst
      · simp [andThen, hx, pure_run]
      · simp [andThen, hx, pure_run]
    exact ⟨fun j _ => hc j, Or.inl (hc k)⟩

/-- C96 (nothing else): whatever happens, either no connection begins or exactly one, which was idle, begins once; the latter only when a
socket is accepted and a timer can be had. -/
theorem C96_only (s s' : Srv) (e : TEnv) (v : TEv) (hn : next s e v = .ok s') : (∀ j, begun s' j = begun s j) ∨
    ∃ k, Taken e v ∧ e.timerFree = true ∧ (s.conns k).st = .init ∧ begun s' k = begun s k + 1 ∧
      (∃ q, Pool.alloc s.ids = .ok (some k, q)) ∧ ∀ j, j ≠ k → begun s' j = begun s j := by
  have hs := settled_as hn
  by_cases hv : v = .accept
  · subst hv
    by_cases h : (e.linkFree && e.accepts) = true
    · have ht : takeLink e = pure () := by simp [takeLink, h]
      have hr : event e .accept s = (allocId >>= fun r => match r with
          | none => pure ()
          | some k => onAcceptLink k e) s := by
        show (takeLink e >>= _) s = _
        rw [ht]
        rfl
      rw [hr, bind_run] at hs
      unfold allocId at hs
      cases ha : Pool.alloc s.ids with
      | ok r =>
        obtain ⟨o, q⟩ := r
        rw [ha] at hs
        cases o with
        | none => exact Or.inl fun j => by rw [hs]; rfl
        | some k =>
          have hs' : s' = (onAcceptLink k e { s with ids := q }).2 := hs
          obtain ⟨g1, g2⟩ := onAcceptLink_begun { s with ids := q } e k
          rw [← hs'] at g1 g2
          rcases g2 with g2 | ⟨g2, g3, g4⟩
          · refine Or.inl fun j => ?_
            by_cases hj : j = k
            · subst hj; exact g2
            · exact g1 j hj
          · exact Or.inr ⟨k, ⟨rfl, by simpa using h⟩, g3, g2, g4, ⟨q, rfl⟩, g1⟩
      | throws => rw [ha] at hs; exact Or.inl fun j => by rw [hs]; rfl
      | abort => rw [ha] at hs; exact Or.inl fun j => by rw [hs]; rfl
      | ub => rw [ha] at hs; exact Or.inl fun j => by rw [hs]; rfl
    · have := C96_refused s e (by simpa using h)
      rw [this] at hn
      cases hn
      exact Or.inl fun _ => rfl
  · exact Or.inl fun j => by rw [hs]; exact calm_event hv s j

theorem sum_add_one : ∀ (l : List Nat) (f g : Nat → Nat) (k : Nat), l.Nodup → g k = f k + 1 → (∀ j, j ≠ k → g j = f j) →
    (l.map g).sum = (l.map f).sum + (if k ∈ l then 1 else 0)
  | [], _, _, _, _, _, _ => by simp
  | a :: l, f, g, k, hd, hk, hj => by
    have ih := sum_add_one l f g k (List.nodup_cons.1 hd).2 hk hj
    have ha := (List.nodup_cons.1 hd).1
    by_cases h : a = k
    · subst h
      simp only [List.map_cons, List.sum_cons, ih, hk, List.mem_cons, true_or, if_true, if_neg ha]
      omega
    · have : k ∈ a :: l ↔ k ∈ l := by simp [Ne.symm h]
      simp only [List.map_cons, List.sum_cons, ih, hj a h, this]
      omega

/-- C96 (counting): in every history of the server, whatever the clients and the channel layer do and whatever system calls fail, all
connections together have begun at most as often as sockets were accepted. -/
theorem C96_counts (m : Nat → Mem) (evs : List (TEnv × TEv)) (s : Srv) (h : Srv.Reach m evs s) : admissions s ≤ sockets evs := by
  induction h with
  | @create s h =>
    obtain ⟨q, hq, -⟩ := Pool.free_create
    have : ∀ k, begun s k = 0 := fun k => by
      simp only [Srv.create, hq] at h
      cases h
      rfl
    have hz : ∀ l : List Nat, (l.map fun _ => 0).sum = 0 := fun l => by induction l <;> simp_all
    simp only [admissions, funext this, hz]
    exact Nat.zero_le _
  | @step evs s s' e v hr hp hn ih =>
    have hc : sockets (evs ++ [(e, v)]) = sockets evs + (if Taken e v then 1 else 0) := by
      by_cases ht : Taken e v <;> simp [sockets, List.countP_append, ht]
    rcases C96_only s s' e v hn with g | ⟨k, g1, -, -, g4, -, g6⟩
    · have : admissions s' = admissions s := by unfold admissions; rw [funext g]
      omega
    · have := sum_add_one (List.range' 1 poolCap) (begun s) (begun s') k List.nodup_range' g4 g6
      rw [hc, if_pos g1]
      unfold admissions at ih ⊢
      split at this <;> omega

/-! ## Sockets that are forgotten -/

/-- What may follow state `s`. -/
inductive Later : Srv → Srv → Prop
  | refl (s : Srv) : Later s s
  | step {s s' s'' : Srv} {e : TEnv} {v : TEv} (h : Later s s') (hp : Possible s' v) (hn : next s' e v = .ok s'') : Later s s''

/-- Connection `k` holds a socket that nobody serves: it has no timer and is not in use. -/
structure Stranded (s : Srv) (k : Nat) (log : List TAct) : Prop where
  st : (s.conns k).st = .init
  link : (s.conns k).link = true
  timer : (s.conns k).timer = false
  armed : (s.conns k).armed = false
  log : (s.conns k).log = log

theorem Stranded.of_eq {s s' : Srv} {k : Nat} {log : List TAct} (h : Stranded s k log) (he : s'.conns k = s.conns k) : Stranded s' k log :=
  ⟨by rw [he]; exact h.st, by rw [he]; exact h.link, by rw [he]; exact h.timer, by rw [he]; exact h.armed, by rw [he]; exact h.log⟩

theorem stranded_next {s s' : Srv} {k : Nat} {log : List TAct} (hi : s.Inv True False) (hk : Pool.valid k) (h : Stranded s k log) {e : TEnv} {v : TEv}
    (hp : Possible s v) (hn : next s e v = .ok s') : Stranded s' k log := by
  obtain ⟨l, hf, hg⟩ := hi
  have hnl : k ∉ l := fun hm => by
    have := ((hg k hk).1 hm).link
    rw [h.link] at this
    cases this
  have away : ∀ {j : Nat} {t : Srv} {ch : UInt32}, k ≠ j → t.conns = s.conns → Foot j ch t s' → Stranded s' k log :=
    fun hj ht hf => h.of_eq (by rw [hf.1 _ hj, ht])
  cases v with
  | accept =>
    by_cases ht : (e.linkFree && e.accepts) = true
    · cases l with
      | nil =>
        rw [C96_full s hf e] at hn
        cases hn
        exact h
      | cons j l =>
        obtain ⟨q, hq, -⟩ := hf.alloc_cons
        have hn : settle ((takeLink e >>= fun _ => allocId >>= fun r => match r with
          | none => pure ()
          | some k => onAcceptLink k e) s) = .ok s' := hn
        have htl : takeLink e = pure () := by simp [takeLink, ht]
        have ha : allocId s = (.ok (some j), { s with ids := q }) := by simp only [allocId, hq]
        rw [htl, bind_ok (pure_run _ _), bind_ok ha] at hn
        exact away (fun he => hnl (by rw [he]; exact List.mem_cons_self)) rfl ((ft_onAcceptLink (ch := 0)).settled (s := { s with ids := q }) hn)
    · rw [C96_refused s e (by simpa using ht)] at hn
      cases hn
      exact h
  | linkData j =>
    by_cases hj : k = j
    · subst hj
      have : event e (.linkData k) s = (.ok (), s) := by
        show onData k e s = _
        simp [onData, self, bind_run, andThen, h.st, pure_run]
      simp only [next, this, settle, Exec.ok.injEq] at hn
      exact hn ▸ h
    · exact away (ch := 0) hj rfl (ft_onData.settled hn)
  | linkError j =>
    by_cases hj : k = j
    · subst hj
      have : s' = s.set k { s.conns k with opened := false } := settled_as hn
      subst this
      exact ⟨by simp [Srv.set, h.st], by simp [Srv.set, h.link], by simp [Srv.set, h.timer], by simp [Srv.set, h.armed], by simp [Srv.set, h.log]⟩
    · exact away (ch := 0) hj rfl ((ft_conn fun _ => ⟨rfl, id⟩ : Foots j 0 (onError j)).settled hn)
  | timer j =>
    by_cases hj : k = j
    · subst hj
      have := hp.2
      rw [h.armed] at this
      cases this
    · exact away (ch := 0) hj rfl (ft_onTimer.settled hn)
  | down j x =>
    have hn : settle ((if Pool.valid j then onReceive j e x else undefined : SM Srv Unit) s) = .ok s' := hn
    split at hn
    · by_cases hj : k = j
      · subst hj
        have : onReceive k e x s = (.ok (), s) := by simp [onReceive, self, bind_run, andThen, h.st, pure_run]
        simp only [this, settle, Exec.ok.injEq] at hn
        exact hn ▸ h
      · obtain ⟨ch, hch⟩ : ∃ ch, ∀ f d, x ≠ .openRsp ch f d := by
          cases x with
          | openRsp c f d => exact ⟨c + 1, fun _ _ he => by injection he with h1; simp at h1⟩
          | closeRsp c f d => exact ⟨0, fun _ _ he => by cases he⟩
          | sendReq c f d => exact ⟨0, fun _ _ he => by cases he⟩
          | releaseReq => exact ⟨0, fun _ _ he => by cases he⟩
        exact away hj rfl ((ft_onReceive hch).settled hn)
    · cases hn

/-- Violation of C96: a socket that is accepted when the reactor has no timer left is never served and never closed by the server: its
connection object holds it in whatever follows, no client is ever served by that object again, and its identifier never comes back. -/
theorem C96_stranded_violated (m : Nat → Mem) (evs : List (TEnv × TEv)) (s : Srv) (h : Srv.Reach m evs s) (k : Nat) (l : List Nat)
    (hl : Pool.Free s.ids (k :: l)) (e : TEnv) (h1 : e.linkFree = true) (h2 : e.accepts = true) (h3 : e.timerFree = false) :
    ∃ s', next s e .accept = .ok s' ∧ Pool.Free s'.ids l ∧ ∀ s'', Later s' s'' → (s''.conns k).link = true ∧ (s''.conns k).log = (s.conns k).log ∧
      ∃ free, Pool.Free s''.ids free ∧ k ∉ free := by
  have hk : Pool.valid k := hl.ids k (by simp)
  obtain ⟨i1, i2, i3, i4, i5, -⟩ := idle_next h hl
  obtain ⟨q, hq, hfq⟩ := hl.alloc_cons
  let s' : Srv := { s.set k { s.conns k with link := true, opened := true } with ids := q }
  have hn : next s e .accept = .ok s' := by
    have ht : takeLink e = pure () := by simp [takeLink, h1, h2]
    have ha : allocId s = (.ok (some k), { s with ids := q }) := by simp only [allocId, hq]
    show settle ((takeLink e >>= fun _ => allocId >>= _) s) = _
    rw [ht, bind_ok (pure_run _ _), bind_ok ha]
    simp [onAcceptLink, self, bind_run, andThen, i1, acceptLink, conn, SM.modify, allocTimer, h3, throws, settle, Srv.set, s']
  have hi : s.Inv True False := reach_inv (fun _ _ => ⟨fun _ => trivial, False.elim⟩) h
  have hi' : s'.Inv True False := next_keeps (v := .accept) ⟨fun _ => trivial, False.elim⟩ hi trivial hn
  refine ⟨s', hn, hfq, fun s'' hlater => ?_⟩
  have key : s''.Inv True False ∧ Stranded s'' k (s.conns k).log := by
    generalize hs' : s' = s0 at *
    induction hlater with
    | refl =>
      subst hs'
      exact ⟨hi', by simp [s', Srv.set, i1], by simp [s', Srv.set], by simp [s', Srv.set, i3], by simp [s', Srv.set, i4], by simp [s', Srv.set]⟩
    | step _ hp hn' ih =>
      exact ⟨next_keeps ⟨fun _ => trivial, False.elim⟩ ih.1 hp hn', stranded_next ih.1 hk ih.2 hp hn'⟩
  obtain ⟨⟨l', hf, hg⟩, hst⟩ := key
  refine ⟨hst.link, hst.log, l', hf, fun hm => ?_⟩
  have := ((hg k hk).1 hm).link
  rw [hst.link] at this
  cases this

/-! ## The premises are met -/

/-- A new server: 1 is next. -/
theorem new_server : ∃ s, Srv.Reach (fun _ => garbage) [] s ∧ Pool.Free s.ids (1 :: List.range' 2 31) ∧ (s.conns 1).log = [] := by
  obtain ⟨q, hq, hf⟩ := Pool.free_create
  exact ⟨_, .create (by simp only [Srv.create, hq]; rfl), hf, rfl⟩

/-- The first socket of a new server is served by connection 1, which has begun once. -/
example : ∃ s, Srv.Reach (fun _ => garbage) [(calm, .accept)] s ∧ (s.conns 1).st = .hello ∧ (s.conns 1).armed = true ∧ begun s 1 = 1 ∧
    sockets [(calm, .accept)] = 1 := by
  obtain ⟨s, h, hf, hl⟩ := new_server
  obtain ⟨s', g1, -, g3, -, -, g6, -⟩ := C96_admitted _ _ s h 1 _ hf calm rfl rfl rfl rfl
  refine ⟨s', .step h trivial g1, by rw [g6]; rfl, by rw [g6]; rfl, ?_, by decide⟩
  show (s'.conns 1).log.count TAct.accepted = 1
  rw [g6]
  show ((s.conns 1).log ++ [TAct.accepted]).count TAct.accepted = 1
  rw [hl]
  rfl

/-- Without a timer connection 1 of a new server is lost: the next client, who finds a timer, is served by connection 2, and 1 still holds
the first socket. -/
example : ∃ s, Srv.Reach (fun _ => garbage) [({ calm with timerFree := false }, .accept), (calm, .accept)] s ∧ (s.conns 1).link = true ∧
    (s.conns 1).log = [] ∧ (s.conns 2).st = .hello := by
  obtain ⟨s, h, hf, hl⟩ := new_server
  obtain ⟨s', g1, g2, g3⟩ := C96_stranded_violated _ _ s h 1 _ hf { calm with timerFree := false } rfl rfl rfl
  have h' : Srv.Reach (fun _ => garbage) [({ calm with timerFree := false }, .accept)] s' := .step h trivial g1
  obtain ⟨s'', k1, -, -, -, -, k6, -⟩ := C96_admitted _ _ s' h' 2 _ g2 calm rfl rfl rfl rfl
  obtain ⟨f1, f2, -⟩ := g3 s'' (.step (v := .accept) (.refl _) trivial k1)
  exact ⟨s'', .step h' trivial k1, f1, by rw [f2, hl], by rw [k6]; rfl⟩

/-- A history in which connection 1 is used: one socket, one beginning. -/
example : ∃ s, Srv.Reach (fun _ => garbage) talk s ∧ begun s 1 = 1 ∧ sockets talk = 1 ∧ admissions s ≤ 1 := by
  obtain ⟨s, h, hv⟩ := observe_reach talk_runs
  have hl : (s.conns 1).log = talkLog := congrArg View.log hv
  have hc := C96_counts _ _ s h
  have hs : sockets talk = 1 := by decide +kernel
  exact ⟨s, h, by unfold begun; rw [hl]; decide +kernel, hs, hs ▸ hc⟩

end Uscada.Ua.Transport
