import Verif.ModbusPeers
/-!
# C87: one frame of a master that is connected
-/

namespace Uscada.Masters

open Uscada.Modbus Uscada.Modbus.Server Uscada.Controller
open Uscada.Modbus.Standard (Request onLink)

/-- The request of a master that is ready to be heard reaches the mailbox of the controller. -/
theorem frame_asks {rnd : Nat → UInt8} {n : Net} {v i : Nat} {S : Server} (hS : n.modbus.servers v = some S) (hi : i < maxNumSession)
    (hf : (S.sess i).Fresh) (ha : n.asks = []) {r : Request} (hr : r.Valid) {tid unit : Nat} (ht : tid < 65536) (hu : unit ≤ 247) :
    ∃ m o q, n.step rnd (.modbus (.server v (.sess i (.data (.ok (onLink tid unit r.pdu))))) true) = .ok (m, o) ∧ m.asks = [(v, i, q)] ∧
      m.ctl = n.ctl ∧ m.log = n.log ∧ q.view = r.view tid unit := by
  have hne : onLink tid unit r.pdu ≠ [] := by
    intro hx
    have := congrArg List.length hx
    simp [onLink] at this
  obtain ⟨s1, os, f, h1, h2, h3, _⟩ := Standard.C75_session_partial hf hr ht hu [onLink tid unit r.pdu] (by simp) (by simpa using hne)
  simp only [Session.pieces, List.map_cons, List.map_nil, Session.run] at h1
  cases hs : (S.sess i).step (.data (.ok (onLink tid unit r.pdu))) with
  | ok x =>
    obtain ⟨s, o⟩ := x
    rw [hs] at h1
    obtain ⟨rfl, rfl⟩ : s = s1 ∧ [(Session.Ev.data (.ok (onLink tid unit r.pdu)), o)] = os := by
      have h1 := Exec.ok.inj h1
      exact ⟨congrArg Prod.fst h1, congrArg Prod.snd h1⟩
    have ho : o = [.fwd f] := by simpa [Session.outs] using h2
    subst ho
    refine ⟨{ n with modbus := { n.modbus with servers := Dispatcher.upd n.modbus.servers v (Server.absorb S i s [.fwd f]) }, asks := n.asks ++ [(v, i, f)] },
      [.session v i (.fwd f)], f, ?_, by simp [ha], rfl, rfl, h3⟩
    have hni : ¬ i ≥ maxNumSession := by omega
    have e1 : S.step (.sess i (.data (.ok (onLink tid unit r.pdu)))) = .ok (Server.absorb S i s [.fwd f], [(i, .fwd f)]) := by
      simp only [Server.step, if_neg hni, hs]
      rfl
    have e2 : n.modbus.step (.server v (.sess i (.data (.ok (onLink tid unit r.pdu))))) =
        .ok ({ n.modbus with servers := Dispatcher.upd n.modbus.servers v (Server.absorb S i s [.fwd f]) }, [.session v i (.fwd f)]) := by
      simp only [Dispatcher.step, hS, Dispatcher.isOwnSessionEvent, if_true, e1]
      rfl
    simp only [Net.step, e2]
    rfl
  | throws => rw [hs] at h1; cases h1
  | abort => rw [hs] at h1; cases h1
  | ub => rw [hs] at h1; cases h1

/-- Violation of C87, always: in every state of the program in which the controller awaits answers and no request is under way, every master whose session is
ready to be heard ends the process with any one request of the standard.  It need only carry a transaction number above 15, or read or write registers from
1024 on. -/
theorem C87_any_frame_violated {rnd : Nat → UInt8} {n : Net} (h : Tame rnd n) (hl : Running n.log ∧ Testing n.log) (ha : n.asks = [])
    {v i : Nat} {S : Server} (hS : n.modbus.servers v = some S) (hi : i < maxNumSession) (hf : (S.sess i).Fresh)
    {r : Request} (hr : r.Valid) {tid unit : Nat} (ht : tid < 65536) (hu : unit ≤ 247)
    (hbad : 16 ≤ tid ∨ (match r with
      | .readHolding s _ | .readInput s _ | .writeRegister s _ | .writeRegisters s _ => 1024 ≤ s
      | _ => False)) (room : Bool) :
    n.run rnd [.modbus (.server v (.sess i (.data (.ok (onLink tid unit r.pdu))))) true, .serve room] = .ub := by
  obtain ⟨es, hk⟩ := h.solid.kept
  obtain ⟨m, o, q, h1, h2, h3, h4, h5⟩ := frame_asks (rnd := rnd) hS hi hf ha hr ht hu
  have hq : 16 ≤ q.transactId ∨ q.func ∈ [3, 4, 6, 16] ∧ 1024 ≤ q.startItem := by
    have e1 : q.transactId = tid := congrArg ReqView.transactId h5
    have e2 : q.func = r.code := congrArg ReqView.func h5
    have e3 : q.startItem = (r.view tid unit).startItem := congrArg ReqView.startItem h5
    rcases hbad with hb | hb
    · exact .inl (by omega)
    · right
      rw [e2, e3]
      cases r <;> first | exact hb.elim | exact ⟨by decide, hb⟩ | exact ⟨by simp [Request.code], hb⟩
  have hu := C61_range_violated rnd es n.ctl n.log hk hl.1 hl.2 v i q hq
  simp only [Net.run, h1]
  show (m.step rnd (.serve room) >>= _) = _
  simp only [Net.step, h2, h3, hu]
  rfl

/-- Non-vacuity: after the start and after a master has connected, the controller awaits answers, nothing is under way and the session is ready to be heard. -/
example : ∃ n S, Tame UInt8.ofNat n ∧ (Running n.log ∧ Testing n.log) ∧ n.asks = [] ∧ n.modbus.servers 0 = some S ∧ (S.sess 0).Fresh := by
  have h : (match tamely UInt8.ofNat net0 (begun ++ [.modbus (.server 0 (.accept true)) true]) with
      | some n => runningB n.log && decide (Testing n.log) && decide (n.asks.length = 0) && (match n.modbus.servers 0 with
        | some S => decide ((S.sess 0).st = .connected ∧ (S.sess 0).link = true ∧ (S.sess 0).timer = true ∧ (S.sess 0).armed = true ∧ (S.sess 0).opened = true) &&
            decide ((S.sess 0).pdu.pos = 0 ∧ (S.sess 0).pdu.len = 0 ∧ (S.sess 0).adu.dataCap = 260 ∧ (S.sess 0).adu.numBytes ≤ 255)
        | none => false)
      | none => false) = true := by decide +kernel
  split at h
  · rename_i n hn
    simp only [Bool.and_eq_true, decide_eq_true_eq] at h
    obtain ⟨⟨⟨h1, h2⟩, h3⟩, h4⟩ := h
    split at h4
    · rename_i S hS
      simp only [Bool.and_eq_true, decide_eq_true_eq] at h4
      obtain ⟨⟨a1, a2, a3, a4, a5⟩, b1, b2, b3, b4⟩ := h4
      exact ⟨n, S, tame_of _ (plain_new (by decide +kernel)) (.create 1 0) hn, ⟨running_of h1, h2⟩, List.length_eq_zero_iff.1 h3, hS,
        ⟨a1, a2, a3, a4, a5, b1, b2, b3, b4⟩⟩
    · cases h4
  · cases h

end Uscada.Masters
