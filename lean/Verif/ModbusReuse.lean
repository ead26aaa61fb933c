import Verif.ModbusBlind
import Verif.ModbusNetProps

/-!
# C97: a session that is used again behaves like a new one

ModbusServer.cpp:38-65, ModbusSession.cpp:210-215.  Sessions are kept in an array and are used for one master after the other; neither the
receive buffer nor the stored request is cleared when a master leaves.  A used session and a new one are compared: they are given the same
events, from the acceptance of a master on.
-/

namespace Uscada.Modbus.Reuse

open Uscada.Modbus.Blind Uscada.Masters Uscada.Modbus.Server

/-! ## Specification -/

/-- What happens to a session from the acceptance of a master on, with the effects of each event. -/
inductive Visit (s : Session) : List Session.Ev → List SOut → Session → Prop
  | accepted {t : Session} {o : List SOut} : s.step .start = .ok (t, o) → Visit s [] o t
  | event {es : List Session.Ev} {os o : List SOut} {t t' : Session} {e : Session.Ev} : Visit s es os t → t.step e = .ok (t', o) →
    Visit s (es ++ [e]) (os ++ o) t'

/-- The application answers only after this master's session forwarded a request, and no longer than an answer can be; the stream of the master does
not end while a decoded request waits for its answer. -/
inductive Orderly (s : Session) : List Session.Ev → List SOut → Session → Prop
  | accepted {t : Session} {o : List SOut} : s.step .start = .ok (t, o) → Orderly s [] o t
  | event {es : List Session.Ev} {os o : List SOut} {t t' : Session} {e : Session.Ev} : Orderly s es os t → t.step e = .ok (t', o) → Polite t e →
    (∀ r ok, e = .rsp r ok → r.data.length ≤ 260 ∧ ∃ q, .fwd q ∈ os) → Orderly s (es ++ [e]) (os ++ o) t'

/-- The frames among the effects. -/
def written (os : List SOut) : List (List UInt8) := os.filterMap fun
  | .frame w => some w
  | _ => none

theorem written_alike {os os' : List SOut} (h : Each Alike os os') : written os' = written os := by
  induction h with
  | nil => rfl
  | @cons x x' _ _ h1 _ ih =>
    unfold written at ih ⊢
    rw [List.filterMap_cons, List.filterMap_cons, ih]
    cases x <;> cases x' <;> first | cases h1; rfl | cases h1 | rfl

/-! ## The acceptance -/

/-- A session that has just accepted a master. -/
theorem start_ready {s : Session} (hs : s.st = .init) :
    s.step .start = .ok (Session.ready { s with link := true, timer := true, opened := true }, []) := by
  simp [Session.step, Session.onStart, Session.transit, Session.exit, Session.enter, Session.setTimer, hs, Session.ready]

theorem ready_firm {s : Session} (h : Sized s) : Firm (Session.ready { s with link := true, timer := true, opened := true }) :=
  ⟨h.1, by show s.adu.numBytes ≤ 260; have := h.2; omega, fun e => (by cases e), fun _ => ⟨rfl, rfl⟩, fun _ => rfl, fun e => (by cases e)⟩

theorem ready_twin {s s' : Session} (h : Sized s) (h' : Sized s') :
    Twin False (Session.ready { s with link := true, timer := true, opened := true }) (Session.ready { s' with link := true, timer := true, opened := true }) :=
  ⟨rfl, rfl, rfl, rfl, rfl, rfl, ⟨fun _ => rfl, fun _ => rfl⟩, fun _ hi => absurd hi (Nat.not_lt_zero _), h.2, h'.2, fun e => e.elim⟩

/-! ## The visit -/

/-- Two idle sessions, whatever their past, serve a master alike. -/
theorem visit_twins {s s' : Session} (h : Sized s) (h' : Sized s') (hs : s.st = .init) (hs' : s'.st = .init) {es : List Session.Ev} {os : List SOut} {t : Session}
    (ho : Orderly s es os t) : ∃ os' t', Visit s' es os' t' ∧ Each Alike os os' ∧ Twin (∃ q, .fwd q ∈ os) t t' ∧ Firm t ∧ Firm t' := by
  induction ho with
  | accepted h0 =>
    rw [start_ready hs] at h0
    cases h0
    exact ⟨_, _, .accepted (start_ready hs'), .nil, (ready_twin h h').weaken (by simp), ready_firm h, ready_firm h'⟩
  | @event es os o t t1 e _ h1 hp hr ih =>
    obtain ⟨os', t', g1, g2, g3, g4, g5⟩ := ih
    obtain ⟨u, u', p, p', k1, k2, k3, k4⟩ := step_twin g3 g4 g5 hp hr
    rw [h1] at k1
    cases k1
    have small : ∀ r ok, e = .rsp r ok → r.data.length ≤ 260 := fun r ok hx => (hr r ok hx).1
    have hp' : Polite t' e := fun e1 e2 => g3.pos.1 (hp e1 (g3.st.trans e2))
    obtain ⟨w, q, f1, f2, -⟩ := step_firm g4 hp.lasting small
    rw [h1] at f1
    cases f1
    obtain ⟨w', q', f1', f2', -⟩ := step_firm g5 hp'.lasting small
    rw [k2] at f1'
    cases f1'
    refine ⟨_, _, .event g1 k2, g2.append k3, k4.weaken ?_, f2, f2'⟩
    rintro ⟨q, hq⟩
    exact (List.mem_append.1 hq).imp (fun h => ⟨q, h⟩) fun h => ⟨q, h⟩

theorem run_sized : ∀ (es : List Server.Ev) {v v' : Server}, (∀ i, Sized (v.sess i)) → v.run es = .ok v' → ∀ i, Sized (v'.sess i)
  | [], v, v', h, hr => by cases hr; exact h
  | e :: es, v, v', h, hr => by
    simp only [Server.run] at hr
    cases hs : v.step e with
    | ok r =>
      obtain ⟨v1, o⟩ := r
      rw [hs] at hr
      exact run_sized es (server_sized h hs) hr
    | throws => rw [hs] at hr; cases hr
    | abort => rw [hs] at hr; cases hr
    | ub => rw [hs] at hr; cases hr

/-- C97: take any history of a server, whatever masters sent, however their connections ended, and any of its sessions that serves nobody.  If a
master is accepted by this session, the session does what a new session would do: it writes the same frames, forwards requests that agree in all
that their function uses, and ends alike.  This holds as long as the application answers nothing before the session has forwarded a request of this
master, and the stream of this master does not end behind a decoded request. -/
theorem C97_session_partial (f : Nat → Session) (hf : Unused f) (timers links : Nat) (past : List Server.Ev) (v : Server)
    (h : (Server.create f timers links).run past = .ok v) (i : Nat) (hi : (v.sess i).st = .init) (m : Mem) (a : AduReq)
    (es : List Session.Ev) (os : List SOut) (t : Session) (ho : Orderly (Session.create m a) es os t) :
    ∃ os' t', Visit (v.sess i) es os' t' ∧ written os' = written os ∧ Each Alike os os' ∧ t'.st = t.st := by
  have hs : ∀ i, Sized ((Server.create f timers links).sess i) := fun i => by
    obtain ⟨m, a, e⟩ := hf i
    show Sized (f i)
    rw [e]
    exact ⟨rfl, Nat.zero_le _⟩
  obtain ⟨os', t', g1, g2, g3, -, -⟩ := visit_twins (s := Session.create m a) ⟨rfl, Nat.zero_le _⟩ (run_sized past hs h i) rfl hi ho
  exact ⟨os', t', g1, written_alike g2, g2, g3.st.symm⟩

/-! ## Runs -/

/-- Run events of a session. -/
def plays (t : Session) (os : List SOut) : List Session.Ev → Option (List SOut × Session)
  | [] => some (os, t)
  | e :: es => match t.step e with
    | .ok (t1, o) => plays t1 (os ++ o) es
    | _ => none

theorem plays_visit {s : Session} : ∀ (es : List Session.Ev) {es0 : List Session.Ev} {os os1 : List SOut} {t t1 : Session}, Visit s es0 os t →
    plays t os es = some (os1, t1) → Visit s (es0 ++ es) os1 t1
  | [], _, _, _, _, _, h, hg => by
    cases hg
    simpa using h
  | e :: es, es0, os, os1, t, t1, h, hg => by
    simp only [plays] at hg
    split at hg
    · rename_i w o hs
      have := plays_visit es (.event h hs) hg
      simpa using this
    · cases hg

/-- Accept a master and run the events of the session. -/
def hosts (s : Session) (es : List Session.Ev) : Option (List SOut × Session) :=
  match s.step .start with
  | .ok (t, o) => plays t o es
  | _ => none

theorem hosts_visit {s : Session} {es : List Session.Ev} {os : List SOut} {t : Session} (h : hosts s es = some (os, t)) : Visit s es os t := by
  unfold hosts at h
  split at h
  · rename_i t0 o h0
    simpa using plays_visit es (.accepted h0) h
  · cases h

/-- `Orderly` as a test. -/
def proper (t : Session) (os : List SOut) : Session.Ev → Bool
  | .rsp r _ => decide (r.data.length ≤ 260) && os.any fun x => match x with
    | .fwd _ => true
    | _ => false
  | .data (.ok []) => decide (t.st ≠ .wait) || decide (t.pdu.pos = 0)
  | _ => true

theorem proper_of {t : Session} {os : List SOut} {e : Session.Ev} (h : proper t os e = true) :
    Polite t e ∧ ∀ r ok, e = .rsp r ok → r.data.length ≤ 260 ∧ ∃ q, .fwd q ∈ os := by
  cases e with
  | rsp r ok =>
    refine ⟨fun e => (by cases e), fun r' ok' e => ?_⟩
    cases e
    simp only [proper, Bool.and_eq_true, decide_eq_true_eq, List.any_eq_true] at h
    obtain ⟨h1, x, h2, h3⟩ := h
    cases x with
    | fwd q => exact ⟨h1, q, h2⟩
    | _ => cases h3
  | data rx =>
    refine ⟨fun e1 e2 => ?_, fun r ok e => by cases e⟩
    cases e1
    simp only [proper, Bool.or_eq_true, decide_eq_true_eq] at h
    exact h.resolve_left fun k => k e2
  | start | linkError | timer => exact ⟨fun e => (by cases e), fun r ok e => by cases e⟩

/-- Run orderly events of a session. -/
def serves (t : Session) (os : List SOut) : List Session.Ev → Option (List SOut × Session)
  | [] => some (os, t)
  | e :: es => if proper t os e then match t.step e with
      | .ok (t1, o) => serves t1 (os ++ o) es
      | _ => none
    else none

theorem serves_orderly {s : Session} : ∀ (es : List Session.Ev) {es0 : List Session.Ev} {os os1 : List SOut} {t t1 : Session}, Orderly s es0 os t →
    serves t os es = some (os1, t1) → Orderly s (es0 ++ es) os1 t1
  | [], _, _, _, _, _, h, hg => by
    cases hg
    simpa using h
  | e :: es, es0, os, os1, t, t1, h, hg => by
    simp only [serves] at hg
    split at hg
    · rename_i hp
      split at hg
      · rename_i w o hs
        have := serves_orderly es (.event h hs (proper_of hp).1 (proper_of hp).2) hg
        simpa using this
      · cases hg
    · cases hg

theorem ok_of_bind {α β : Type} {x : Exec α} {f : α → Exec β} {b : β} (h : x.bind f = .ok b) : ∃ a, x = .ok a ∧ f a = .ok b := by
  cases x with
  | ok a => exact ⟨a, rfl, h⟩
  | throws => cases h
  | abort => cases h
  | ub => cases h

/-- A new session. -/
def blank : Session := Session.create (fun _ => 0) ⟨0, 0, 0, 0, 0, 0, 0, fun _ => 0, 0⟩

/-- A master asks for a register under the number 7 and its connection breaks before the application answers. -/
def before : List Server.Ev := [.accept true, .sess 0 (.data (.ok [0, 7, 0, 0, 0, 6, 1, 3, 0, 0, 0, 1])), .sess 0 (.data .error)]

/-- The premises of `C97_session_partial`: session 0 has a past, and a master asks for two registers in two pieces, is answered and leaves. -/
example : ∃ v os t, (Server.create (fun _ => blank) 2 2).run before = .ok v ∧ (v.sess 0).st = .init ∧ Orderly blank
    [.data (.ok [0, 9, 0, 0, 0, 6, 2]), .data (.ok [3, 0, 4, 0, 2]), .rsp ⟨9, 0, true, [1, 2, 3, 4]⟩ true, .data .error] os t ∧
    written os = [[0, 9, 0, 0, 0, 7, 2, 3, 4, 2, 1, 4, 3]] := by
  have h1 : ((Server.create (fun _ => blank) 2 2).run before).bind (fun v => .ok (decide ((v.sess 0).st = .init))) = .ok true := by decide +kernel
  have h2 : ((serves (Session.ready { blank with link := true, timer := true, opened := true }) []
    [.data (.ok [0, 9, 0, 0, 0, 6, 2]), .data (.ok [3, 0, 4, 0, 2]), .rsp ⟨9, 0, true, [1, 2, 3, 4]⟩ true, .data .error]).map fun x => written x.1) =
      some [[0, 9, 0, 0, 0, 7, 2, 3, 4, 2, 1, 4, 3]] := by decide +kernel
  obtain ⟨⟨os, t⟩, g1, g2⟩ := Option.map_eq_some_iff.1 h2
  obtain ⟨v, hv, h1⟩ := ok_of_bind h1
  exact ⟨v, os, t, hv, of_decide_eq_true (Exec.ok.inj h1), by simpa using serves_orderly _ (.accepted (start_ready rfl)) g1, g2⟩

/-- Violation of C97: what the application answers to a master that has left is written to a later master of the same session, who asked for nothing: this
master has sent a frame with a byte too many, which no session understands.  A new session writes nothing. -/
theorem C97_inherits_violated : ∃ v os t os' t', (Server.create (fun _ => blank) 2 2).run before = .ok v ∧ (v.sess 0).st = .init ∧
    Visit (v.sess 0) [.data (.ok [0, 9, 0, 0, 0, 2, 2, 3, 0]), .rsp ⟨7, 0, true, [1, 2]⟩ true] os t ∧ written os = [[0, 7, 0, 0, 0, 5, 1, 3, 2, 2, 1]] ∧
    Visit blank [.data (.ok [0, 9, 0, 0, 0, 2, 2, 3, 0]), .rsp ⟨7, 0, true, [1, 2]⟩ true] os' t' ∧ written os' = [] := by
  have h1 : ((Server.create (fun _ => blank) 2 2).run before).bind (fun v => .ok (decide ((v.sess 0).st = .init),
      (hosts (v.sess 0) [.data (.ok [0, 9, 0, 0, 0, 2, 2, 3, 0]), .rsp ⟨7, 0, true, [1, 2]⟩ true]).map fun x => written x.1)) =
      .ok (true, some [[0, 7, 0, 0, 0, 5, 1, 3, 2, 2, 1]]) := by decide +kernel
  have h2 : ((hosts blank [.data (.ok [0, 9, 0, 0, 0, 2, 2, 3, 0]), .rsp ⟨7, 0, true, [1, 2]⟩ true]).map fun x => written x.1) = some [] := by decide +kernel
  obtain ⟨v, hv, h1⟩ := ok_of_bind h1
  have h3 := Exec.ok.inj h1
  obtain ⟨⟨os, t⟩, g1, g2⟩ := Option.map_eq_some_iff.1 (Prod.mk.inj h3).2
  obtain ⟨⟨os', t'⟩, k1, k2⟩ := Option.map_eq_some_iff.1 h2
  exact ⟨v, os, t, os', t', hv, of_decide_eq_true (Prod.mk.inj h3).1, hosts_visit g1, g2, hosts_visit k1, k2⟩

end Uscada.Modbus.Reuse
