import Verif.ReadyProps
import Verif.ModbusServerProps
/-!
# C93: one connection too many at a Modbus server

The ready list of `Ready` with the acceptor of a Modbus server (ModbusServer.cpp:44-58).  The server has 256 identifiers, its reactor 32 timers and 32 links
(EntityPool.hpp:18).  A connection beyond the 32nd therefore finds an identifier but no timer: `prepare` throws before the connection is taken, and the
identifier is lost (C18).  The acceptor is level-triggered, so this repeats at once until no identifier is left.

Links and timers are numbered by the reactor; to which session one belongs is part of the environment here, since nothing below depends on it.
-/

namespace Uscada.Modbus.Server

open Heard

/-- What is undetermined while a handler runs: whether `accept` succeeds, and the session and event behind a link, a timer or a message. -/
structure REnv where
  accepts : Bool
  sess : Nat
  ev : Session.Ev

/-- Whether ModbusServer.cpp:44-58 ends by an exception: there is an identifier, but a timer, a link or the connection cannot be had. -/
def refuses (v : Server) (accepts : Bool) : Bool := v.free ≠ [] && (v.timers = 0 || v.links = 0 || !accepts)

/-- A step of the server as the reaction of a handler. -/
def outcome (v : Server) (threw : Bool) : Exec (Server × List (Nat × SOut)) → Exec Unit × Server
  | .ok (v', _) => (if threw then .throws else .ok (), v')
  | .throws => (.throws, v)
  | .abort => (.abort, v)
  | .ub => (.ub, v)

/-- The handlers of Acceptor.cpp:104-112, Link.cpp:140-175, Timer.cpp:111-133 and Event.cpp:56-64. -/
def react (v : Server) : Src → REnv → Exec Unit × Server
  | .acceptor i, e => if i = 0 then outcome v (refuses v e.accepts) (v.step (.accept e.accepts)) else (.ok (), v)
  | _, e => outcome v false (v.step (.sess e.sess e.ev))

/-- `accept` is reached (ModbusServer.cpp:56) and succeeds. -/
def takes (v : Server) : Src → REnv → Bool
  | .acceptor i, e => i = 0 && v.free ≠ [] && v.timers ≠ 0 && v.links ≠ 0 && e.accepts
  | _, _ => false

def hearing : Handlers Server REnv := ⟨react, takes⟩

/-- The acceptor of the server. -/
def door : Src := .acceptor 0

/-- Without a free timer each call of the handler costs an identifier. -/
theorem door_throws {v : Server} {i : Nat} {fr : List Nat} (hf : v.free = i :: fr) (ht : v.timers = 0) (e : REnv) :
    hearing.react v door e = (.throws, { v with free := fr }) ∧ hearing.takes v door e = false := by
  have hp : prepare { v with free := fr } i e.accepts = ({ v with free := fr }, false) := by simp [prepare, ht]
  constructor
  · show outcome v (refuses v e.accepts) (v.step (.accept e.accepts)) = _
    have hs : v.step (.accept e.accepts) = .ok ({ v with free := fr }, []) := by
      simp only [step, hf]
      rw [hp]
      rfl
    have hr : refuses v e.accepts = true := by simp [refuses, hf, ht]
    rw [hs, hr]
    rfl
  · show (decide ((0 : Fin 32) = 0) && decide (v.free ≠ []) && decide (v.timers ≠ 0) && decide (v.links ≠ 0) && e.accepts) = false
    simp [ht]

/-- Without an identifier the handler returns, and the connection still waits. -/
theorem door_idle {v : Server} (hf : v.free = []) (e : REnv) : hearing.react v door e = (.ok (), v) ∧ hearing.takes v door e = false := by
  constructor
  · show outcome v (refuses v e.accepts) (v.step (.accept e.accepts)) = _
    simp [step, hf, refuses, outcome]
  · show (decide ((0 : Fin 32) = 0) && decide (v.free ≠ []) && decide (v.timers ≠ 0) && decide (v.links ≠ 0) && e.accepts) = false
    simp [hf]

/-- Violation of C93: when the timers of the reactor are used up and one more client has connected, the next turns, as many as identifiers are
left, handle nothing at all.  What was ready is lost, and each turn costs an identifier. -/
theorem C93_modbus_drained_violated : ∀ (ts : List (Turn REnv)) (l : Loop Server), Stuck door l → (∀ t ∈ ts, Usual door t) → l.st.timers = 0 →
    ts.length ≤ l.st.free.length →
    Stuck door (Heard.run hearing l ts).1 ∧ (Heard.run hearing l ts).1.st = { l.st with free := l.st.free.drop ts.length } ∧
      (∀ x, .handled x ∉ (Heard.run hearing l ts).2) ∧ ∀ x ∈ l.ready, x ≠ door → ts ≠ [] → .lost x ∈ (Heard.run hearing l ts).2
  | [], l, hl, _, _, _ => ⟨hl, rfl, fun _ => List.not_mem_nil, fun _ _ _ h => absurd rfl h⟩
  | t :: ts, l, hl, hts, h0, hlen => by
    cases hf : l.st.free with
    | nil => rw [hf] at hlen; cases hlen
    | cons i fr =>
      obtain ⟨h1, h2, -, h4⟩ := stuck_turn (h := hearing) hl (hts t List.mem_cons_self) (door_throws hf h0 _)
      obtain ⟨h5, h6, h7, -⟩ := C93_modbus_drained_violated ts (turn hearing l t).1 h1 (fun t ht => hts t (List.mem_cons_of_mem _ ht))
        (by rw [h2]; exact h0) (by rw [h2]; rw [hf] at hlen; exact Nat.le_of_succ_le_succ hlen)
      refine ⟨h5, ?_, fun x hm => ?_, fun x hx hxd _ => ?_⟩
      · refine h6.trans ?_
        rw [h2]
        simp
      · rcases List.mem_append.mp hm with hm | hm
        · rw [h4] at hm
          rcases List.mem_cons.mp hm with hm | hm
          · cases hm
          · obtain ⟨_, -, hm⟩ := List.mem_map.mp hm
            cases hm
        · exact h7 x hm
      · refine List.mem_append_left _ ?_
        rw [h4]
        obtain ⟨q, hq, -⟩ := hl.first
        rw [hq] at hx ⊢
        rcases List.mem_cons.mp hx with rfl | hx
        · exact absurd rfl hxd
        · exact List.mem_cons_of_mem _ (List.mem_map_of_mem hx)

/-- Violation of C93 (nothing is to be heard, and yet the reactor does not rest): afterwards the handler of the acceptor is called in every
turn, though no connection is taken and nothing changes. -/
theorem C93_modbus_spins_violated : ∀ (ts : List (Turn REnv)) (l : Loop Server), l.ended = false → l.ready = [door] → 0 < l.backlog door → l.st.free = [] →
    (∀ t ∈ ts, t.early = [] ∧ t.late = [] ∧ t.gone = []) →
    (Heard.run hearing l ts).1.st = l.st ∧ (Heard.run hearing l ts).2 = List.replicate ts.length (.handled door)
  | [], _, _, _, _, _, _ => ⟨rfl, rfl⟩
  | t :: ts, l, hl, hr, hb, hf, hts => by
    obtain ⟨h1, h2, h3⟩ := hts t List.mem_cons_self
    have hscan : scan l.backlog 10 l.ready = ⟨[door], [door], []⟩ := by
      rw [hr]
      exact scan_front rfl hb (by simp) (by decide)
    have hd : dispatch hearing t.env l.st [door] = ⟨l.st, false, [.handled door]⟩ := by
      rw [dispatch, (door_idle hf _).1, (door_idle hf _).2]
      rfl
    have ht : turn hearing l t = (⟨l.st, [door], fun x => l.backlog x - List.count (Note.took x) [Note.handled door] + List.count x ([] ++ []), false⟩,
        [.handled door]) := by
      unfold turn
      rw [hl, if_neg (by decide)]
      dsimp only
      rw [hscan]
      dsimp only
      rw [hd, h1, h2, h3]
      rfl
    have := C93_modbus_spins_violated ts (turn hearing l t).1 (by rw [ht]) (by rw [ht]) (by rw [ht]; exact hb) (by rw [ht]; exact hf)
      (fun t ht => hts t (List.mem_cons_of_mem _ ht))
    refine ⟨this.1.trans (by rw [ht]), ?_⟩
    show (turn hearing l t).2 ++ (Heard.run hearing (turn hearing l t).1 ts).2 = _
    rw [this.2, ht]
    rfl

/-! ## The way there -/

/-- A turn in which a client connects. -/
def knock : Turn REnv := { env := fun _ => ⟨true, 0, .linkError⟩, early := [], late := [door], gone := [] }

/-- A server in a reactor at whose acceptor one connection waits, after `n` others. -/
structure Knocked (n : Nat) (l : Loop Server) : Prop where
  safe : Safe l.st
  free : l.st.free.length + n = 256
  timers : l.st.timers + n = 32
  links : l.st.links + n = 32
  ready : l.ready = [door]
  backlog : l.backlog door = 1
  live : l.ended = false

theorem knock_step {n : Nat} {l : Loop Server} (hl : Knocked n l) (hn : n < 32) : Knocked (n + 1) (turn hearing l knock).1 := by
  obtain ⟨hs, hfree, htimers, hlinks, hready, hback, hlive⟩ := hl
  cases hf : l.st.free with
  | nil => rw [hf] at hfree; simp at hfree; omega
  | cons i fr =>
    have hacc := accept_ok hf hs (by omega) (by omega)
    have hreact : hearing.react l.st door (knock.env door) = (.ok (), accepted l.st i fr) := by
      show outcome l.st (refuses l.st true) (l.st.step (.accept true)) = _
      have : refuses l.st true = false := by
        have h1 : l.st.timers ≠ 0 := by omega
        have h2 : l.st.links ≠ 0 := by omega
        simp [refuses, h1, h2]
      rw [hacc, this]
      rfl
    have htakes : hearing.takes l.st door (knock.env door) = true := by
      show (decide ((0 : Fin 32) = 0) && decide (l.st.free ≠ []) && decide (l.st.timers ≠ 0) && decide (l.st.links ≠ 0) && true) = true
      have h1 : l.st.timers ≠ 0 := by omega
      have h2 : l.st.links ≠ 0 := by omega
      simp [hf, h1, h2]
    have hscan : scan l.backlog 10 l.ready = ⟨[door], [door], []⟩ := by
      rw [hready]
      exact scan_front rfl (by omega) (by simp) (by decide)
    have hdisp : dispatch hearing knock.env l.st [door] = ⟨accepted l.st i fr, false, [.took door, .handled door]⟩ := by
      rw [dispatch, hreact, htakes]
      rfl
    unfold turn
    rw [hlive, if_neg (by decide)]
    dsimp only
    rw [hscan]
    dsimp only
    rw [hdisp]
    rw [hf, List.length_cons] at hfree
    refine ⟨safe_step hs hacc, ?_, ?_, ?_, ?_, ?_, rfl⟩
    · show fr.length + (n + 1) = 256
      omega
    · show l.st.timers - 1 + (n + 1) = 32
      omega
    · show l.st.links - 1 + (n + 1) = 32
      omega
    · show requeue ⟨[door], [door], []⟩ [] [door] [] = [door]
      decide
    · show l.backlog door - List.count (Note.took door) [Note.took door, .handled door] + List.count door ([] ++ [door]) = 1
      rw [hback]
      decide

theorem knock_run : ∀ (j n : Nat) (l : Loop Server), Knocked n l → n + j ≤ 32 → Knocked (n + j) (Heard.run hearing l (List.replicate j knock)).1
  | 0, _, _, hl, _ => hl
  | j + 1, n, l, hl, hn => by
    have := knock_run j (n + 1) _ (knock_step hl (by omega)) (by omega)
    rw [show n + (j + 1) = n + 1 + j by omega]
    exact this

theorem run_cons (l : Loop Server) (t : Turn REnv) (ts : List (Turn REnv)) :
    (Heard.run hearing l (t :: ts)).1 = (Heard.run hearing (turn hearing l t).1 ts).1 := rfl

/-- Violation of C93: 33 clients that connect to a Modbus server after its start and send nothing.  The next 224 turns handle nothing, whatever
becomes ready; then no identifier is left. -/
theorem C93_modbus_deaf_violated (f : Nat → Session) (hn : NewSessions f) (ts : List (Turn REnv)) (hts : ∀ t ∈ ts, Usual door t) (hlen : ts.length = 224) :
    let l := (Heard.run hearing (start (create f 32 32)) (List.replicate 33 knock)).1
    Stuck door l ∧ (∀ x, .handled x ∉ (Heard.run hearing l ts).2) ∧ (Heard.run hearing l ts).1.st = { l.st with free := [] } ∧
      Stuck door (Heard.run hearing l ts).1 := by
  have hk : Knocked 0 (turn hearing (start (create f 32 32)) knock).1 := by
    refine ⟨safe_create hn 32 32, ?_, rfl, rfl, ?_, ?_, rfl⟩
    · exact List.length_range
    · show requeue ⟨[], [], []⟩ [] [door] [] = [door]
      decide
    · show 0 - List.count (Note.took door) [] + List.count door ([] ++ [door]) = 1
      decide
  have hrun : Knocked 32 (Heard.run hearing (start (create f 32 32)) (List.replicate 33 knock)).1 := by
    have h32 := knock_run 32 0 _ hk (by omega)
    rw [Nat.zero_add, ← run_cons, ← List.replicate_succ] at h32
    exact h32
  dsimp only
  generalize (Heard.run hearing (start (create f 32 32)) (List.replicate 33 knock)).1 = l at hrun ⊢
  obtain ⟨hs, hfree, htimers, hlinks, hready, hback, hlive⟩ := hrun
  have hstuck : Stuck door l := ⟨rfl, hlive, by omega, [], hready, by decide, fun x hx => by cases hx⟩
  obtain ⟨h1, h2, h3, -⟩ := C93_modbus_drained_violated ts l hstuck hts (by omega) (by omega)
  refine ⟨hstuck, h3, h2.trans ?_, h1⟩
  rw [List.drop_eq_nil_of_le (by omega)]

/-- Without a connection too many the acceptor of the server takes what comes. -/
theorem C93_modbus_open_partial (v : Server) (hs : Safe v) (hf : v.free ≠ []) (ht : 0 < v.timers) (hl : 0 < v.links) (e : REnv) (he : e.accepts = true) :
    (∃ v', hearing.react v door e = (.ok (), v')) ∧ hearing.takes v door e = true := by
  have h1 : v.timers ≠ 0 := by omega
  have h2 : v.links ≠ 0 := by omega
  cases hfr : v.free with
  | nil => exact absurd hfr hf
  | cons i fr =>
    constructor
    · refine ⟨accepted v i fr, ?_⟩
      show outcome v (refuses v e.accepts) (v.step (.accept e.accepts)) = _
      have : refuses v true = false := by simp [refuses, h1, h2]
      rw [he, accept_ok hfr hs ht hl, this]
      rfl
    · show (decide ((0 : Fin 32) = 0) && decide (v.free ≠ []) && decide (v.timers ≠ 0) && decide (v.links ≠ 0) && e.accepts) = true
      simp [hf, h1, h2, he]

/-! ## Examples -/

/-- 224 turns as in `C93_modbus_deaf_violated`: in each a link and a timer become ready and a message comes. -/
example : ∀ t ∈ List.replicate 224 ({ knock with late := [.link 3, .timer 3, .mailbox] } : Turn REnv), Usual door t := by
  intro t ht
  rw [(List.mem_replicate.mp ht).2]
  exact ⟨rfl, by decide, by decide, by decide⟩

example : NewSessions newSessions := fun _ => ⟨_, _, rfl⟩

/-- A loop of `C93_modbus_drained_violated` and one of `C93_modbus_spins_violated`. -/
example : Stuck door ({ st := { (create newSessions 0 0) with free := [200, 201] }, ready := [door, .link 1, .timer 4], backlog := fun _ => 1, ended := false } : Loop Server) :=
  ⟨rfl, rfl, by decide, _, rfl, by decide, by decide⟩

end Uscada.Modbus.Server
