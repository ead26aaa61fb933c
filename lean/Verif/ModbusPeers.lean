import Verif.ModbusDispatchProps
import Verif.ModbusLoad
/-!
# C87: what Modbus peers can do to the process
-/

namespace Uscada.Masters

open Uscada.Modbus Uscada.Modbus.Server Uscada.Controller

/-! ## Sessions -/

/-- What holds of every session: the stored request has its 260 bytes, a started session holds link and timer, and decoding starts at the first byte of the
buffer unless the frame in it is complete. -/
structure Firm (s : Session) : Prop where
  cap : s.adu.dataCap = 260
  num : s.adu.numBytes ≤ 260
  idle : s.st = .init → s.armed = false
  held : s.st ≠ .init → s.link = true ∧ s.timer = true
  conn : s.st = .connected → s.pdu.pos = 0
  wait : s.st = .wait → s.pdu.pos = 0 ∨ 6 ≤ s.pdu.len ∧ beAt s.pdu.buf 4 + 6 ≤ s.pdu.len

/-- What holds of every forwarded request. -/
def Small (q : FwdReq) : Prop := q.data.length ≤ 260 ∧ (q.func = 3 ∨ q.func = 4 → q.numItems ≤ 125)

theorem parse_fields (m : Mem) (p : Nat) (a : AduReq) (hc : a.dataCap = 260) (hn : a.numBytes ≤ 260) :
    (parseReq m p a).2.1.dataCap = 260 ∧ (parseReq m p a).2.1.numBytes ≤ 260 ∧
      ((parseReq m p a).2.2 = true → (parseReq m p a).2.1.func = 3 ∨ (parseReq m p a).2.1.func = 4 → (parseReq m p a).2.1.numItems ≤ 125) := by
  have hb := (m (p + 12)).toNat_lt
  have h2 : maxPduLen = 253 := rfl
  unfold parseReq
  dsimp only
  split
  · exact ⟨hc, hn, by simp⟩
  split
  · exact ⟨hc, hn, by simp⟩
  split
  · split
    · exact ⟨hc, hn, by simp⟩
    · split
      · exact ⟨hc, hn, by simp⟩
      · rename_i hp
        refine ⟨hc, hn, fun _ hf => ?_⟩
        dsimp only at hf hp ⊢
        rcases hf with hf | hf <;> rw [hf] at hp <;> simp [pduLen, fReadCoil, fReadDiscrete, fForceCoil, fPresetSingle, fReadHolding, fReadInput] at hp <;> omega
  split
  · rename_i hf
    split
    · exact ⟨hc, hn, by simp⟩
    · refine ⟨hc, by simp, fun _ hf' => ?_⟩
      dsimp only at hf hf'
      rcases hf' with hf' | hf' <;> rw [hf'] at hf <;> simp [isSingleFunc, fForceCoil, fPresetSingle] at hf
  split
  · rename_i hf
    split
    · exact ⟨hc, by dsimp only; omega, by simp⟩
    split
    · exact ⟨hc, by dsimp only; omega, by simp⟩
    · refine ⟨hc, by dsimp only; omega, fun _ hf' => ?_⟩
      dsimp only at hf hf'
      rcases hf' with hf' | hf' <;> rw [hf'] at hf <;> simp [fPresetMulti] at hf
  · exact ⟨hc, hn, by simp⟩

/-- The evaluation of the buffer. -/
theorem evaluate_firm {s : Session} (hc : s.adu.dataCap = 260) (hn : s.adu.numBytes ≤ 260)
    (hp : isAduHdrReceived s.pdu = true → isAduValid s.pdu = true → s.pdu.pos ≤ 244) :
    ∃ a k o r, s.evaluate = .ok ({ s with pdu := { s.pdu with pos := k }, adu := a }, o, r) ∧ a.dataCap = 260 ∧ a.numBytes ≤ 260 ∧
      (k = s.pdu.pos ∨ r = .done ∧ 6 ≤ s.pdu.len ∧ beAt s.pdu.buf 4 + 6 ≤ s.pdu.len) ∧ ∀ q, .fwd q ∈ o → Small q := by
  have same : ∀ r, ∃ a k o r', (Exec.ok (s, ([] : List SOut), r) : Exec (Session × List SOut × Status)) =
      .ok ({ s with pdu := { s.pdu with pos := k }, adu := a }, o, r') ∧ a.dataCap = 260 ∧ a.numBytes ≤ 260 ∧
      (k = s.pdu.pos ∨ r' = .done ∧ 6 ≤ s.pdu.len ∧ beAt s.pdu.buf 4 + 6 ≤ s.pdu.len) ∧ ∀ q, .fwd q ∈ o → Small q :=
    fun r => ⟨s.adu, s.pdu.pos, [], r, rfl, hc, hn, .inl rfl, by simp⟩
  unfold Session.evaluate
  split
  · exact same _
  rename_i h1
  split
  · exact same _
  split
  · exact same _
  split
  · exact same _
  rename_i h4
  have h1' : isAduHdrReceived s.pdu = true := by simpa using h1
  have h4' : isAduValid s.pdu = true := by simpa using h4
  have hpos := hp h1' h4'
  have hlen : 6 ≤ s.pdu.len ∧ beAt s.pdu.buf 4 + 6 ≤ s.pdu.len := by
    simp only [isAduHdrReceived, aduHdrLen, ge_iff_le, decide_eq_true_eq] at h1'
    simp only [isAduValid, aduPktLen, aduLenOffset, aduHdrLen, Bool.and_eq_true, beq_iff_eq] at h4'
    have e : s.pdu.len = beAt s.pdu.buf 4 + 6 := h4'.2.symm
    omega
  rw [decodeReq_eq s.pdu s.adu (by omega) (by omega), Exec.ok_bind]
  obtain ⟨f1, f2, f3⟩ := parse_fields s.pdu.buf s.pdu.pos s.adu hc hn
  dsimp only
  split
  · exact ⟨_, _, _, _, rfl, f1, f2, .inr ⟨rfl, hlen⟩, by simp⟩
  rename_i hok
  rw [if_neg (by rw [f1]; exact Nat.not_lt.2 f2)]
  refine ⟨_, _, _, _, rfl, f1, f2, .inr ⟨rfl, hlen⟩, ?_⟩
  intro q hq
  simp only [List.mem_singleton, SOut.fwd.injEq] at hq
  subst hq
  refine ⟨?_, f3 (by simpa using hok)⟩
  simp only [Session.fwdOf]
  rw [show (memRead (parseReq s.pdu.buf s.pdu.pos s.adu).2.1.data 0 (parseReq s.pdu.buf s.pdu.pos s.adu).2.1.numBytes).length =
    (parseReq s.pdu.buf s.pdu.pos s.adu).2.1.numBytes by simp [memRead]]
  exact f2

/-- The end of the stream is not read while the session waits for the application, unless the session is still within the first half of its
buffer. -/
def Lasting (s : Session) (e : Session.Ev) : Prop := e = .data (.ok []) → s.st = .wait → s.pdu.pos ≤ 244

/-- Reading. -/
theorem receive_firm {s : Session} {rx : Rx} (h : Firm s) (hs : s.st ≠ .init) (he : Lasting s (.data rx)) :
    ∃ s' o r, s.receive rx = .ok (s', o, r) ∧ s'.st = s.st ∧ s'.link = s.link ∧ s'.timer = s.timer ∧ s'.armed = s.armed ∧
      s'.adu.dataCap = 260 ∧ s'.adu.numBytes ≤ 260 ∧
      (s'.pdu.pos = 0 ∨ (s.st = .connected → r = .done) ∧ 6 ≤ s'.pdu.len ∧ beAt s'.pdu.buf 4 + 6 ≤ s'.pdu.len) ∧ ∀ q, .fwd q ∈ o → Small q := by
  have hA : maxAduLen = 260 := rfl
  obtain ⟨hl, ht⟩ := h.held hs
  have hst : s.st = .connected ∨ s.st = .wait := by
    cases hx : s.st
    · exact absurd hx hs
    · exact .inl rfl
    · exact .inr rfl
  have old : s.pdu.pos = 0 ∨ s.st = .wait ∧ 6 ≤ s.pdu.len ∧ beAt s.pdu.buf 4 + 6 ≤ s.pdu.len := by
    rcases hst with e | e
    · exact .inl (h.conn e)
    · exact (h.wait e).imp_right fun k => ⟨e, k⟩
  have same : ∀ r, ∃ s' o r', (Exec.ok (s, ([] : List SOut), r) : Exec (Session × List SOut × Status)) = .ok (s', o, r') ∧ s'.st = s.st ∧ s'.link = s.link ∧
      s'.timer = s.timer ∧ s'.armed = s.armed ∧ s'.adu.dataCap = 260 ∧ s'.adu.numBytes ≤ 260 ∧
      (s'.pdu.pos = 0 ∨ (s.st = .connected → r' = .done) ∧ 6 ≤ s'.pdu.len ∧ beAt s'.pdu.buf 4 + 6 ≤ s'.pdu.len) ∧ ∀ q, .fwd q ∈ o → Small q :=
    fun r => ⟨s, [], r, rfl, rfl, rfl, rfl, rfl, h.cap, h.num, old.imp_right fun k => ⟨fun e => (by rw [k.1] at e; cases e), k.2⟩, by simp⟩
  unfold Session.receive
  split
  · exact same _
  rename_i hlen
  rw [if_neg (by simp [hl])]
  split
  · exact same _
  split
  · exact same _
  · exact same _
  · rename_i bytes
    generalize hcs : bytes.take s.pdu.capacity = cs
    have hcs0 : cs = [] → bytes = [] := by
      intro e
      rw [e] at hcs
      cases bytes with
      | nil => rfl
      | cons b bs =>
        have : s.pdu.capacity = 512 - s.pdu.len := rfl
        obtain ⟨k, hk⟩ : ∃ k, s.pdu.capacity = k + 1 := ⟨511 - s.pdu.len, by omega⟩
        rw [hk] at hcs
        cases hcs
    have hrl : (s.pdu.received cs).len = s.pdu.len + cs.length := rfl
    obtain ⟨a, k, o, r, h1, h2, h3, h4, h5⟩ := evaluate_firm (s := { s with pdu := s.pdu.received cs }) h.cap h.num (by
      intro _ hv
      show s.pdu.pos ≤ 244
      rcases old with e | ⟨e, g1, g2⟩
      · omega
      · by_cases hc : cs = []
        · have := hcs0 hc
          subst this
          exact he rfl e
        · exfalso
          have hv2 : (s.pdu.received cs).len < 260 ∧ beAt (s.pdu.received cs).buf 4 + 6 = (s.pdu.received cs).len := by
            simp only [isAduValid, Bool.and_eq_true, decide_eq_true_eq, beq_iff_eq] at hv
            exact hv
          rw [Session.buf4_received _ _ g1, hrl] at hv2
          have := List.length_pos_iff.2 hc
          omega)
    refine ⟨_, o, r, h1, rfl, rfl, rfl, rfl, h2, h3, ?_, h5⟩
    dsimp only at h4 ⊢
    rcases h4 with h4 | ⟨h4, h6⟩
    · rcases old with e | ⟨e, g1, g2⟩
      · exact .inl (h4.trans e)
      · refine .inr ⟨fun e' => (by rw [e] at e'; cases e'), ?_, ?_⟩
        · rw [hrl]; omega
        · rw [Session.buf4_received _ _ g1, hrl]; omega
    · exact .inr ⟨fun _ => h4, h6⟩

/-- Every event of a session that is not the end of the stream at the wrong time ends normally, and the session remains firm. -/
theorem step_firm {s : Session} {e : Session.Ev} (h : Firm s) (he : Lasting s e) (hr : ∀ r ok, e = .rsp r ok → r.data.length ≤ 260) :
    ∃ s' o, s.step e = .ok (s', o) ∧ Firm s' ∧ ∀ q, .fwd q ∈ o → Small q := by
  have ends : ∀ {t : Session}, t.adu.dataCap = 260 → t.adu.numBytes ≤ 260 → Firm (Session.ended t) := fun h1 h2 =>
    ⟨h1, h2, fun _ => rfl, fun e => absurd rfl e, nofun, nofun⟩
  have readies : ∀ {t : Session}, t.adu.dataCap = 260 → t.adu.numBytes ≤ 260 → t.link = true → t.timer = true → Firm (Session.ready t) := fun h1 h2 h3 h4 =>
    ⟨h1, h2, nofun, fun _ => ⟨h3, h4⟩, fun _ => rfl, nofun⟩
  cases e with
  | start =>
    simp only [Session.step, Session.onStart]
    split
    · rename_i hs
      rw [Session.transit_connected (by simp [hs]) rfl]
      exact ⟨_, _, rfl, readies h.cap h.num rfl rfl, by simp⟩
    · rename_i hs
      exact ⟨_, _, rfl, ⟨h.cap, h.num, h.idle, fun _ => ⟨rfl, rfl⟩, h.conn, h.wait⟩, by simp⟩
  | linkError => exact ⟨_, _, rfl, ⟨h.cap, h.num, h.idle, h.held, h.conn, h.wait⟩, by simp⟩
  | timer =>
    simp only [Session.step]
    split
    · rename_i ha
      unfold Session.onTimer
      split
      · rename_i hs
        exact ⟨_, _, rfl, ⟨h.cap, h.num, fun _ => rfl, h.held, h.conn, h.wait⟩, by simp⟩
      · rename_i hs
        dsimp only at hs
        rw [Session.transit_init (s := { s with armed := false }) (by simp [hs]) (h.held (by simp [hs])).2]
        exact ⟨_, _, rfl, ends h.cap h.num, by simp⟩
      · rename_i hs
        dsimp only at hs
        have hh := h.held (by simp [hs])
        rw [Session.transit_connected (s := { s with armed := false }) (by simp [hs]) hh.2]
        exact ⟨_, _, rfl, readies h.cap h.num hh.1 hh.2, by simp⟩
    · exact ⟨_, _, rfl, h, by simp⟩
  | rsp r ok =>
    simp only [Session.step, Session.onRsp]
    split
    · exact ⟨_, _, rfl, h, by simp⟩
    · exact ⟨_, _, rfl, h, by simp⟩
    · rename_i hs
      have hh := h.held (by simp [hs])
      obtain ⟨o, res, h1, h2, h3⟩ := Session.send_spec s r ok (hr _ _ rfl) hh.1
      rw [h1, Exec.ok_bind]
      have nf : ∀ q, .fwd q ∉ o := by
        rcases h3 with rfl | ⟨w, rfl, _⟩ <;> simp
      rcases h2 with rfl | rfl
      · dsimp only
        rw [Session.transit_connected (by simp [hs]) hh.2]
        refine ⟨_, _, rfl, readies h.cap h.num hh.1 hh.2, fun q hq => ?_⟩
        simp only [List.append_nil] at hq
        exact absurd hq (nf q)
      · dsimp only
        rw [Session.transit_init (by simp [hs]) hh.2]
        refine ⟨_, _, rfl, ends h.cap h.num, fun q hq => ?_⟩
        simp only [List.mem_append, List.mem_singleton, reduceCtorEq, or_false] at hq
        exact absurd hq (nf q)
  | data rx =>
    simp only [Session.step]
    split
    · unfold Session.onData
      split
      · exact ⟨_, _, rfl, h, by simp⟩
      · rename_i hs
        obtain ⟨s1, o, r, h1, g1, g2, g3, g4, g5, g6, g7, g8⟩ := receive_firm h (by simp [hs]) he
        have hh := h.held (by simp [hs])
        rw [h1, Exec.ok_bind]
        dsimp only
        have hs1 : s1.st = .connected := g1.trans hs
        cases r with
        | error =>
          dsimp only
          rw [Session.transit_init (by simp [hs1]) (g3.trans hh.2)]
          refine ⟨_, _, rfl, ends g5 g6, fun q hq => ?_⟩
          simp only [List.mem_append, List.mem_singleton, reduceCtorEq, or_false] at hq
          exact g8 q hq
        | done =>
          dsimp only
          rw [Session.transit_wait hs1 (g3.trans hh.2)]
          refine ⟨_, _, rfl, ⟨g5, g6, nofun, fun _ => ⟨g2.trans hh.1, g3.trans hh.2⟩, nofun, fun _ => g7.imp_right (·.2)⟩, fun q hq => ?_⟩
          simp only [List.append_nil] at hq
          exact g8 q hq
        | noerror | codecError =>
          refine ⟨_, _, rfl, ⟨g5, g6, fun e => ?_, fun _ => ⟨g2.trans hh.1, g3.trans hh.2⟩, fun _ => ?_, fun e => ?_⟩, g8⟩
          · rw [hs1] at e; cases e
          · rcases g7 with g7 | g7
            · exact g7
            · exact absurd (g7.1 hs) nofun
          · rw [hs1] at e; cases e
      · rename_i hs
        obtain ⟨s1, o, r, h1, g1, g2, g3, g4, g5, g6, g7, g8⟩ := receive_firm h (by simp [hs]) he
        have hh := h.held (by simp [hs])
        rw [h1, Exec.ok_bind]
        dsimp only
        have hs1 : s1.st = .wait := g1.trans hs
        have stays : Firm s1 := ⟨g5, g6, fun e => (by rw [hs1] at e; cases e), fun _ => ⟨g2.trans hh.1, g3.trans hh.2⟩,
          fun e => (by rw [hs1] at e; cases e), fun _ => g7.imp_right (·.2)⟩
        cases r with
        | error =>
          dsimp only
          rw [Session.transit_init (by simp [hs1]) (g3.trans hh.2)]
          refine ⟨_, _, rfl, ends g5 g6, fun q hq => ?_⟩
          simp only [List.mem_append, List.mem_singleton, reduceCtorEq, or_false] at hq
          exact g8 q hq
        | done => exact ⟨_, _, rfl, stays, g8⟩
        | noerror | codecError => exact ⟨_, _, rfl, stays, g8⟩
    · exact ⟨_, _, rfl, h, by simp⟩

/-! ## Servers -/

theorem server_firm {S : Server} {e : Server.Ev} (hg : Safe S) (hf : ∀ i, Firm (S.sess i))
    (he : ∀ i k, e = .sess i k → i < 256 ∧ Lasting (S.sess i) k ∧ ∀ r ok, k = .rsp r ok → r.data.length ≤ 260) :
    ∃ S' o, S.step e = .ok (S', o) ∧ (∀ i, Firm (S'.sess i)) ∧ ∀ i q, (i, .fwd q) ∈ o → i < 256 ∧ Small q := by
  have keep : ∀ {f : Nat → Session} {i : Nat} {s : Session}, (∀ j, Firm (f j)) → Firm s → ∀ j, Firm (Server.set f i s j) := by
    intro f i s h1 h2 j
    unfold Server.set
    split
    · exact h2
    · exact h1 j
  have absorbs : ∀ {S : Server} {i : Nat} {s : Session} {o : List SOut}, (∀ j, Firm (S.sess j)) → Firm s → ∀ j, Firm ((Server.absorb S i s o).sess j) := by
    intro S i s o h1 h2 j
    unfold Server.absorb
    split <;> exact keep h1 h2 j
  have outs : ∀ {i : Nat} {o : List SOut}, i < 256 → (∀ q, .fwd q ∈ o → Small q) → ∀ j q, (j, .fwd q) ∈ o.map (fun x => (i, x)) → j < 256 ∧ Small q := by
    intro i o h1 h2 j q hm
    obtain ⟨x, hx, e⟩ := List.mem_map.1 hm
    cases e
    exact ⟨h1, h2 q hx⟩
  have timered : ∀ {s : Session}, Firm s → Firm { s with timer := true } := fun h =>
    ⟨h.cap, h.num, h.idle, fun e => ⟨(h.held e).1, rfl⟩, h.conn, h.wait⟩
  have linked : ∀ {s : Session}, Firm s → Firm { s with link := true } := fun h =>
    ⟨h.cap, h.num, h.idle, fun e => ⟨rfl, (h.held e).2⟩, h.conn, h.wait⟩
  cases e with
  | accept ok =>
    simp only [Server.step]
    split
    · exact ⟨_, _, rfl, hf, by simp⟩
    · rename_i i fr hfr
      have hp : ∀ j, Firm ((Server.prepare { S with free := fr } i ok).1.sess j) := by
        unfold Server.prepare
        split
        · exact hf
        · dsimp only
          split
          · exact keep hf (timered (hf i))
          · exact keep (keep hf (timered (hf i))) (linked (keep hf (timered (hf i)) i))
      generalize Server.prepare { S with free := fr } i ok = p at hp
      obtain ⟨S1, good⟩ := p
      dsimp only at hp ⊢
      split
      · exact ⟨_, _, rfl, hp, by simp⟩
      · obtain ⟨s, o, h1, h2, h3⟩ := step_firm (e := .start) (hp i) (by intro e; cases e) (by intro r k e; cases e)
        rw [h1, Exec.ok_bind]
        exact ⟨_, _, rfl, absorbs hp h2, outs (hg.range i (by rw [hfr]; simp)) h3⟩
  | sess i k =>
    obtain ⟨e1, e2, e3⟩ := he i k rfl
    by_cases hk : k = .start
    · subst hk
      exact ⟨_, _, rfl, hf, by simp⟩
    have hstep : S.step (.sess i k) = (if i ≥ maxNumSession then .ub else do
        let (s, o) ← (S.sess i).step k
        pure (absorb S i s o, o.map fun x => (i, x))) := by
      cases k <;> first | exact absurd rfl hk | rfl
    rw [hstep, if_neg (by simp [maxNumSession]; omega)]
    obtain ⟨s, o, h1, h2, h3⟩ := step_firm (hf i) e2 e3
    rw [h1, Exec.ok_bind]
    exact ⟨_, _, rfl, absorbs hf h2, outs e1 h3⟩

/-! ## The component -/

/-- All sessions of all servers are firm. -/
def AllFirm (d : Dispatcher) : Prop := ∀ v S, d.servers v = some S → ∀ i, Firm (S.sess i)

theorem loop_servers (its : List Dispatcher.CfgItem) : ∀ {d d' : Dispatcher} {o : List Dispatcher.Out} {t : Bool},
    d.configLoop its = .ok (d', o, t) → ∀ v S, d'.servers v = some S → d.servers v = some S ∨ ∃ it ∈ its, it.entity = .inr S := by
  induction its with
  | nil =>
    intro d d' o t h v S hS
    cases h
    exact .inl hS
  | cons it its ih =>
    intro d d' o t h v S hS
    simp only [Dispatcher.configLoop] at h
    rw [Exec.bind_eq_ok] at h
    obtain ⟨⟨d1, o1, t1⟩, h1, h⟩ := h
    have first : d1.servers v = some S → d.servers v = some S ∨ ∃ it' ∈ it :: its, it'.entity = .inr S := by
      intro hS
      unfold Dispatcher.configItem at h1
      split at h1
      · rename_i T hT
        split at h1
        · cases h1; exact .inl hS
        split at h1
        · cases h1; exact .inl hS
        split at h1
        · cases h1
        · cases h1
          by_cases hv : v = it.id
          · subst hv
            have e := (upd_same d.servers it.id T).symm.trans hS
            cases e
            exact .inr ⟨it, by simp, hT⟩
          · exact .inl ((upd_other _ _ hv).symm.trans hS)
      · split at h1
        · cases h1; exact .inl hS
        split at h1
        · cases h1; exact .inl hS
        all_goals
          rw [Exec.bind_eq_ok] at h1
          obtain ⟨⟨c, o'⟩, _, h2⟩ := h1
          cases h2
          exact .inl hS
    dsimp only at h
    split at h
    · cases h
      exact first hS
    · rw [Exec.bind_eq_ok] at h
      obtain ⟨⟨d2, o2, t2⟩, h2, h⟩ := h
      cases h
      rcases ih h2 v S hS with g | ⟨x, hx, g⟩
      · exact first g
      · exact .inr ⟨x, by simp [hx], g⟩

/-- What the environment of the component does: sessions have numbers below 256, answers at most 260 bytes, servers are new, callers provide the announced
bytes, the peers of the clients are orderly as in C14, and the end of the stream of a master is not read at the wrong time. -/
def Suits (d : Dispatcher) : Dispatcher.Ev → Prop
  | .config its => ∀ it ∈ its, ∀ S, it.entity = .inr S → ∃ f t l, NewSessions f ∧ S = Server.create f t l
  | .batch rs => ∀ r ∈ rs, Client.CallerOk r
  | .aduRsp _ i r _ => i < 256 ∧ r.data.length ≤ 260
  | .client i e => ∀ c, d.clients i = some c → Client.OrderlyEv c e
  | .server _ (.accept _) => True
  | .server v (.sess i e) => i < 256 ∧ ∀ S, d.servers v = some S → Lasting (S.sess i) e

theorem firm_create {f : Nat → Session} (h : NewSessions f) (t l : Nat) : ∀ i, Firm ((Server.create f t l).sess i) := by
  intro i
  obtain ⟨m, a, e⟩ := h i
  show Firm (f i)
  rw [e]
  exact ⟨rfl, by simp [Session.create], fun _ => rfl, fun h => absurd rfl h, nofun, nofun⟩

theorem firm_upd {d : Dispatcher} {v : Nat} {S : Server} (h : AllFirm d) (hS : ∀ i, Firm (S.sess i)) : AllFirm { d with servers := Dispatcher.upd d.servers v S } := by
  intro w T hT
  by_cases hw : w = v
  · subst hw
    have e := (upd_same d.servers w S).symm.trans hT
    cases e
    exact hS
  · exact h w T ((upd_other _ _ hw).symm.trans hT)

/-- One event of the component. -/
theorem dispatcher_firm {d : Dispatcher} {e : Dispatcher.Ev} (h1 : Fine d) (h2 : d.Inv) (h3 : AllFirm d) (he : Suits d e) :
    ((∀ its, e ≠ .config its) → ∃ d' o, d.step e = .ok (d', o)) ∧
    ∀ d' o, d.step e = .ok (d', o) → AllFirm d' ∧ d'.Inv ∧ ∀ m ∈ asksOf o, m.2.1 < 256 ∧ Small m.2.2 := by
  have sess : ∀ (v : Nat) {o : List (Nat × SOut)}, (∀ i q, (i, .fwd q) ∈ o → i < 256 ∧ Small q) →
      ∀ m ∈ asksOf (o.map fun x => .session v x.1 x.2), m.2.1 < 256 ∧ Small m.2.2 := by
    intro v o ho m hm
    unfold asksOf at hm
    obtain ⟨x, hx, hm⟩ := List.mem_filterMap.1 hm
    obtain ⟨⟨i, y⟩, hy, rfl⟩ := List.mem_map.1 hx
    cases y with
    | fwd q =>
      cases hm
      exact ho i q hy
    | frame w => cases hm
    | released => cases hm
  have inv : Dispatcher.EvOk e → ∀ {d' : Dispatcher} {o : List Dispatcher.Out}, d.step e = .ok (d', o) → d'.Inv := fun ho _ _ h => (Dispatcher.step_spec h2 ho h).1
  have none : ∀ {d' : Dispatcher} {o : List Dispatcher.Out}, d.step e = .ok (d', o) → (∀ v i k, e ≠ .server v (.sess i k)) → ∀ m ∈ asksOf o, m.2.1 < 256 ∧ Small m.2.2 := by
    intro d' o h hn m hm
    rcases (dispatcher_out h1 h).2 with g | ⟨v, i, q, k, s, _, g, _⟩
    · rw [g] at hm; cases hm
    · exact absurd g (hn v i k)
  cases e with
  | config its =>
    refine ⟨fun h => absurd rfl (h its), fun d' o h => ⟨?_, inv trivial h, none h (by simp)⟩⟩
    simp only [Dispatcher.step, Dispatcher.config] at h
    rw [Exec.bind_eq_ok] at h
    obtain ⟨⟨d1, o1, t1⟩, g, h⟩ := h
    have hd : d' = d1 := by
      dsimp only at h
      split at h <;> (cases h; rfl)
    subst hd
    intro v S hS
    rcases loop_servers its g v S hS with g | ⟨it, hit, g⟩
    · exact h3 v S g
    · obtain ⟨f, t, l, k, rfl⟩ := he it hit S g
      exact firm_create k t l
  | batch rs =>
    refine ⟨fun _ => ?_, fun d' o h => ⟨?_, inv he h, none h (by simp)⟩⟩
    · obtain ⟨d', o, g, _⟩ := Dispatcher.batch_handed h2 he
      exact ⟨d', o, g⟩
    · obtain ⟨d'', o', g, g', _⟩ := Dispatcher.batch_handed h2 he
      have e := g.symm.trans h
      cases e
      intro v S hS
      rw [g'] at hS
      exact h3 v S hS
  | client i e =>
    refine ⟨fun _ => ?_, fun d' o h => ⟨?_, inv trivial h, none h (by simp)⟩⟩
    · simp only [Dispatcher.step]
      split
      · exact ⟨_, _, rfl⟩
      · rename_i c hc
        split
        · rename_i ho
          obtain ⟨c', o, g⟩ := Client.step_safe (h2.ok i c hc) (by cases e <;> simp_all [Client.EvOk, Dispatcher.isOwnEvent]) (he c hc)
          rw [g, Exec.ok_bind]
          exact ⟨_, _, rfl⟩
        · exact ⟨_, _, rfl⟩
    · simp only [Dispatcher.step] at h
      split at h
      · cases h; exact h3
      · split at h
        · rw [Exec.bind_eq_ok] at h
          obtain ⟨⟨c, o'⟩, _, g⟩ := h
          cases g
          exact h3
        · cases h; exact h3
  | aduRsp v i r ok =>
    have key : ∃ d' o, d.step (.aduRsp v i r ok) = .ok (d', o) ∧ AllFirm d' := by
      simp only [Dispatcher.step, Dispatcher.aduRsp]
      split
      · exact ⟨_, _, rfl, h3⟩
      split
      · exact ⟨_, _, rfl, h3⟩
      · rename_i S hS
        obtain ⟨S', o, g1, g2, _⟩ := server_firm (e := .sess i (.rsp r ok)) (h1 v S hS).2.1 (h3 v S hS) (by
          intro j k e
          cases e
          exact ⟨he.1, (by intro e; cases e), by rintro r' k' e; cases e; exact he.2⟩)
        rw [g1, Exec.ok_bind]
        exact ⟨_, _, rfl, firm_upd h3 g2⟩
    obtain ⟨d1, o1, g, g'⟩ := key
    refine ⟨fun _ => ⟨_, _, g⟩, fun d' o h => ⟨?_, inv trivial h, none h (by simp)⟩⟩
    have e := g.symm.trans h
    cases e
    exact g'
  | server v e =>
    have key : ∃ d' o, d.step (.server v e) = .ok (d', o) ∧ AllFirm d' ∧ ∀ m ∈ asksOf o, m.2.1 < 256 ∧ Small m.2.2 := by
      simp only [Dispatcher.step]
      split
      · exact ⟨_, _, rfl, h3, by simp [asksOf]⟩
      · rename_i S hS
        split
        · rename_i ho
          obtain ⟨S', o, g1, g2, g3⟩ := server_firm (e := e) (h1 v S hS).2.1 (h3 v S hS) (by
            rintro j k rfl
            refine ⟨he.1, he.2 S hS, ?_⟩
            rintro r ok rfl
            simp [Dispatcher.isOwnSessionEvent] at ho)
          rw [g1, Exec.ok_bind]
          exact ⟨_, _, rfl, firm_upd h3 g2, sess v g3⟩
        · exact ⟨_, _, rfl, h3, by simp [asksOf]⟩
    obtain ⟨d1, o1, g, g', g''⟩ := key
    refine ⟨fun _ => ⟨_, _, g⟩, fun d' o h => ?_⟩
    have e := g.symm.trans h
    cases e
    exact ⟨g', inv trivial h, g''⟩

/-! ## The controller -/

/-- A controller that does not await answers ignores forwarded requests. -/
theorem unserved {rnd : Nat → UInt8} {n : Net} (h : Kept rnd n) (hn : ¬ (Running n.log ∧ Testing n.log)) (v i : Nat) (q : FwdReq) :
    n.ctl.step rnd (.modbusAduReq v i q) = .ok (n.ctl, []) := by
  obtain ⟨es, h⟩ := h
  have hi := inv_run (inv_create rnd) h
  simp only [Ctl.step, Ctl.onTestE]
  cases hm : n.ctl.modbus with
  | none => rfl
  | some t =>
    have hl := hi.live t hm
    have hst : t.st ≠ .run := fun e => hn ⟨hl.running, hl.testing.1 e⟩
    have e : t.onAduReq v i q = .ok (t, []) := by
      unfold Test.onAduReq
      cases hs : t.st <;> simp [hs] at hst ⊢
    simp only [e, Exec.ok_bind]
    show Exec.ok (({ n.ctl with modbus := some t } : Ctl), ([] : List Controller.Out)) = _
    rw [← hm]

theorem reply_length (F : Files) {q : FwdReq} (h : Small q) : (reply F q).length ≤ 260 := by
  unfold reply
  split
  · rename_i hf
    have := h.2 hf
    simp only [Files.read, List.length_map, List.length_range]
    omega
  split
  · exact h.1
  · simp

/-- The requests that the controller can serve are the only ones it survives. -/
theorem served_in_regs {rnd : Nat → UInt8} {n : Net} (h : Kept rnd n) (hr : Running n.log ∧ Testing n.log) {v i : Nat} {q : FwdReq}
    (hs : ∃ c o, n.ctl.step rnd (.modbusAduReq v i q) = .ok (c, o)) : q.transactId < 16 ∧
      (q.func = 3 ∨ q.func = 4 → q.startItem < 1024 ∧ 2 * q.startItem + 2 * q.numItems % 65536 ≤ 2048) ∧
      (q.func = 6 ∨ q.func = 16 → q.startItem < 1024 ∧ 2 * q.startItem + q.data.length ≤ 2048) := by
  obtain ⟨es, h⟩ := h
  have hi := inv_run (inv_create rnd) h
  have hrun := running_run running_create h
  obtain ⟨c, o, hs⟩ := hs
  cases hm : n.ctl.modbus with
  | none => exact absurd hm (hrun.2 hr.1)
  | some t =>
    have hl := hi.live t hm
    have hst := hl.testing.2 hr.2
    simp only [Ctl.step, Ctl.onTestE, hm, Test.onAduReq, hst] at hs
    rw [Exec.bind_eq_ok] at hs
    obtain ⟨⟨t', o'⟩, hs, _⟩ := hs
    unfold Test.serve at hs
    split at hs
    · cases hs
    · rename_i k hk
      have hlen := hl.length
      have hreg := hl.regs _ (List.mem_of_getElem? hk)
      have ht : q.transactId < 16 := by
        obtain ⟨hi, _⟩ := List.getElem?_eq_some_iff.1 hk
        omega
      dsimp only at hs
      split at hs
      · rename_i hf
        have hf' : q.func = 3 ∨ q.func = 4 := hf
        rw [Exec.bind_eq_ok] at hs
        obtain ⟨d, hs, _⟩ := hs
        unfold slice at hs
        split at hs
        · exact ⟨ht, fun _ => by omega, fun _ => by omega⟩
        · cases hs
      rename_i hf
      have hf' : ¬ (q.func = 3 ∨ q.func = 4) := hf
      have pt : ∀ {v : List UInt8}, patch k.regs (q.startItem * 2) q.data = .ok v → q.startItem < 1024 ∧ 2 * q.startItem + q.data.length ≤ 2048 := by
        intro v hv
        unfold patch at hv
        split at hv
        · omega
        · cases hv
      split at hs
      · rw [Exec.bind_eq_ok] at hs
        obtain ⟨w, hs, _⟩ := hs
        exact ⟨ht, fun h => absurd h hf', fun _ => pt hs⟩
      split at hs
      · rw [Exec.bind_eq_ok] at hs
        obtain ⟨w, hs, _⟩ := hs
        exact ⟨ht, fun h => absurd h hf', fun _ => pt hs⟩
      · rename_i h6 h16
        have h6' : ¬ q.func = 6 := h6
        have h16' : ¬ q.func = 16 := h16
        exact ⟨ht, fun h => absurd h hf', fun h => by omega⟩

/-! ## The program -/

/-- What does not go beyond the assumptions: as for the component, see `Suits`. -/
def Within (n : Net) : Ev → Prop
  | .modbus (.aduRsp ..) _ => True
  | .modbus e _ => Suits n.modbus e
  | _ => True

/-- The states of the program within the assumptions. -/
inductive Tame (rnd : Nat → UInt8) : Net → Prop
  | create (a b : Nat) : Tame rnd (Net.create (Dispatcher.create a b))
  | step {n n' : Net} {e : Ev} {o : List Dispatcher.Out} : Tame rnd n → Within n e → n.step rnd e = .ok (n', o) → Tame rnd n'

/-- What holds in all these states. -/
structure Solid (rnd : Nat → UInt8) (n : Net) : Prop where
  fine : Fine n.modbus
  kept : Kept rnd n
  inv : n.modbus.Inv
  firm : AllFirm n.modbus
  asks : ∀ m ∈ n.asks, m.2.1 < 256 ∧ Small m.2.2
  says : ∀ m ∈ n.says, m.2.1 < 256 ∧ m.2.2.data.length ≤ 260

theorem within_new {n : Net} {e : Ev} (h : Within n e) : NewServers e := by
  cases e with
  | modbus e room =>
    cases e with
    | config its => exact h
    | _ => trivial
  | _ => trivial

theorem solid_step {rnd : Nat → UInt8} {n n' : Net} {e : Ev} {o : List Dispatcher.Out} (h : Solid rnd n) (he : Within n e)
    (hs : n.step rnd e = .ok (n', o)) : Solid rnd n' := by
  obtain ⟨f1, f2⟩ := net_inv h.fine h.kept (within_new he) hs
  cases e with
  | modbus e room =>
    by_cases ha : ∃ a b r k, e = .aduRsp a b r k
    · obtain ⟨a, b, r, k, rfl⟩ := ha
      cases hs
      exact h
    have hs' : (do
        let (d, o) ← n.modbus.step e
        pure ({ n with modbus := d, asks := n.asks ++ if room then asksOf o else [] }, o)) = Exec.ok (n', o) := by
      cases e <;> first | exact hs | exact absurd ⟨_, _, _, _, rfl⟩ ha
    have he' : Suits n.modbus e := by
      cases e <;> first | exact he | exact absurd ⟨_, _, _, _, rfl⟩ ha
    rw [Exec.bind_eq_ok] at hs'
    obtain ⟨⟨d, o'⟩, g1, g2⟩ := hs'
    cases g2
    obtain ⟨k1, k2, k3⟩ := (dispatcher_firm h.fine h.inv h.firm he').2 _ _ g1
    refine ⟨f1, f2, k2, k1, ?_, h.says⟩
    intro m hm
    rcases List.mem_append.1 hm with hm | hm
    · exact h.asks m hm
    · split at hm
      · exact k3 m hm
      · cases hm
  | ctl e =>
    simp only [Net.step] at hs
    split at hs
    · cases hs; exact h
    · rw [Exec.bind_eq_ok] at hs
      obtain ⟨⟨c, o'⟩, _, g⟩ := hs
      cases g
      exact ⟨f1, f2, h.inv, h.firm, h.asks, h.says⟩
  | serve room =>
    simp only [Net.step] at hs
    split at hs
    · cases hs; exact h
    · rename_i v i q as hq
      rw [Exec.bind_eq_ok] at hs
      obtain ⟨⟨c, o'⟩, g1, g⟩ := hs
      cases g
      have hm : i < 256 ∧ Small q := h.asks (v, i, q) (by rw [hq]; simp)
      refine ⟨f1, f2, h.inv, h.firm, fun m hm => h.asks m (by rw [hq]; simp [hm]), ?_⟩
      intro m hm'
      rcases List.mem_append.1 hm' with hm' | hm'
      · exact h.says m hm'
      split at hm'
      · by_cases hr : Running n.log ∧ Testing n.log
        · obtain ⟨e1, e2, e3⟩ := served_in_regs h.kept hr ⟨_, _, g1⟩
          have hin : InRegs q := ⟨e1, fun hf => by have := e2 hf; have := hm.2.2 hf; omega, e3⟩
          obtain ⟨es, hes⟩ := h.kept
          obtain ⟨c', g2⟩ := (C61_served_partial rnd es n.ctl n.log hes v i q hin).1 hr
          have e := g2.symm.trans g1
          cases e
          simp only [saysOf, List.filterMap_cons, List.filterMap_nil, List.mem_singleton] at hm'
          subst hm'
          exact ⟨hm.1, reply_length _ hm.2⟩
        · have e := (unserved h.kept hr v i q).symm.trans g1
          cases e
          cases hm'
      · cases hm'
  | answer ok =>
    simp only [Net.step] at hs
    split at hs
    · cases hs; exact h
    · rename_i v i r ss hq
      rw [Exec.bind_eq_ok] at hs
      obtain ⟨⟨d, o'⟩, g1, g⟩ := hs
      cases g
      obtain ⟨k1, k2, _⟩ := (dispatcher_firm h.fine h.inv h.firm (e := .aduRsp v i r ok) (h.says (v, i, r) (by rw [hq]; simp))).2 _ _ g1
      exact ⟨f1, f2, k2, k1, h.asks, fun m hm => h.says m (by rw [hq]; simp [hm])⟩

theorem Tame.solid {rnd : Nat → UInt8} {n : Net} (h : Tame rnd n) : Solid rnd n := by
  induction h with
  | create a b =>
    refine ⟨?_, ⟨[], rfl⟩, Dispatcher.inv_create a b, ?_, by simp [Net.create], by simp [Net.create]⟩
    · intro v S hS; cases hS
    · intro v S hS; cases hS
  | step _ he hs ih => exact solid_step ih he hs

/-- C87 (partial: the end of the stream is not read while a session waits for the application, except at the start of its buffer; the peers of the clients
are orderly as in C14; the events of the controller itself and configuration messages are left out).  In every state of the program,
whatever connects to the servers, whatever bytes arrive and however they are cut, whatever links and timers do and whatever the callers of the clients ask
for: the Modbus component ends the event normally.  The oldest answer is handed to its session normally. -/
theorem C87_component_partial {rnd : Nat → UInt8} {n : Net} (h : Tame rnd n) :
    (∀ e room, (∀ its, e ≠ .config its) → Within n (.modbus e room) → ∃ r, n.step rnd (.modbus e room) = .ok r) ∧
    ∀ ok, ∃ r, n.step rnd (.answer ok) = .ok r := by
  have hs := h.solid
  constructor
  · intro e room hc he
    by_cases ha : ∃ a b r k, e = .aduRsp a b r k
    · obtain ⟨a, b, r, k, rfl⟩ := ha
      exact ⟨_, rfl⟩
    have hstep : n.step rnd (.modbus e room) = (do
        let (d, o) ← n.modbus.step e
        pure ({ n with modbus := d, asks := n.asks ++ if room then asksOf o else [] }, o)) := by
      cases e <;> first | rfl | exact absurd ⟨_, _, _, _, rfl⟩ ha
    have he' : Suits n.modbus e := by
      cases e <;> first | exact he | exact absurd ⟨_, _, _, _, rfl⟩ ha
    obtain ⟨d, o, g⟩ := (dispatcher_firm hs.fine hs.inv hs.firm he').1 hc
    rw [hstep, g, Exec.ok_bind]
    exact ⟨_, rfl⟩
  · intro ok
    simp only [Net.step]
    split
    · exact ⟨_, rfl⟩
    · rename_i v i r ss hq
      obtain ⟨d, o, g⟩ := (dispatcher_firm hs.fine hs.inv hs.firm (e := .aduRsp v i r ok) (hs.says (v, i, r) (by rw [hq]; simp))).1 (by simp)
      rw [g, Exec.ok_bind]
      exact ⟨_, rfl⟩

/-- C87 (partial as above).  The controller survives the oldest forwarded request exactly when it is not awaiting answers or the request has a transaction
number below 16 and names registers below 1024. -/
theorem C87_controller_partial {rnd : Nat → UInt8} {n : Net} (h : Tame rnd n) {v i : Nat} {q : FwdReq} {as : List (Nat × Nat × FwdReq)}
    (hq : n.asks = (v, i, q) :: as) (room : Bool) :
    (∃ r, n.step rnd (.serve room) = .ok r) ↔ (Running n.log ∧ Testing n.log → InRegs q) := by
  have hs := h.solid
  have hm : i < 256 ∧ Small q := hs.asks (v, i, q) (by rw [hq]; simp)
  simp only [Net.step, hq]
  constructor
  · rintro ⟨r, hr⟩ hrt
    rw [Exec.bind_eq_ok] at hr
    obtain ⟨⟨c, o⟩, g, _⟩ := hr
    obtain ⟨e1, e2, e3⟩ := served_in_regs hs.kept hrt ⟨_, _, g⟩
    exact ⟨e1, fun hf => by have := e2 hf; have := hm.2.2 hf; omega, e3⟩
  · intro hin
    by_cases hrt : Running n.log ∧ Testing n.log
    · obtain ⟨es, hes⟩ := hs.kept
      obtain ⟨c', g⟩ := (C61_served_partial rnd es n.ctl n.log hes v i q (hin hrt)).1 hrt
      rw [g, Exec.ok_bind]
      exact ⟨_, rfl⟩
    · rw [unserved hs.kept hrt, Exec.ok_bind]
      exact ⟨_, rfl⟩

/-! ## Histories -/

/-- Decides `Within`; servers of configuration messages are checked apart, and clients do not occur. -/
def withinB (n : Net) : Ev → Bool
  | .modbus (.server v (.sess i e)) _ => decide (i < 256) && (match n.modbus.servers v with
    | some S => (match e with
      | .data (.ok []) => (S.sess i).st != .wait || decide ((S.sess i).pdu.pos ≤ 244)
      | _ => true)
    | none => true)
  | .modbus (.batch rs) _ => rs.isEmpty
  | .modbus (.client ..) _ => false
  | _ => true

theorem within_of {n : Net} {e : Ev} (hn : NewServers e) (h : withinB n e = true) : Within n e := by
  cases e with
  | modbus e room =>
    cases e with
    | config its => exact hn
    | batch rs =>
      simp only [withinB, List.isEmpty_iff] at h
      subst h
      intro r hr
      cases hr
    | aduRsp _ _ _ _ => trivial
    | client i e => cases h
    | server v e =>
      cases e with
      | accept ok => trivial
      | sess i e =>
        simp only [withinB, Bool.and_eq_true, decide_eq_true_eq] at h
        refine ⟨h.1, ?_⟩
        rintro S hS rfl hw
        have h2 := h.2
        rw [hS] at h2
        simpa [hw] using h2
  | _ => trivial

/-- A history within the assumptions. -/
def tamely (rnd : Nat → UInt8) (n : Net) : List Ev → Option Net
  | [] => some n
  | e :: es => if withinB n e then (match n.step rnd e with
    | .ok (m, _) => tamely rnd m es
    | _ => none) else none

theorem tame_of {rnd : Nat → UInt8} (es : List Ev) : (∀ e ∈ es, NewServers e) → ∀ {n m : Net}, Tame rnd n → tamely rnd n es = some m → Tame rnd m := by
  induction es with
  | nil =>
    intro _ n m h k
    cases k
    exact h
  | cons e es ih =>
    intro hn n m h k
    unfold tamely at k
    split at k
    · rename_i hp
      split at k
      · rename_i n1 o hs
        exact ih (fun x hx => hn x (by simp [hx])) (.step h (within_of (hn e (by simp)) hp) hs) k
      · cases k
    · cases k

/-- A master that writes 123 registers and leaves, after it sent 512 bytes that are no frame but have the look of another such write from byte 259
on. -/
def bulk : List UInt8 := [0, 5, 0, 0, 0, 253, 9, 16, 0, 7, 0, 123, 246]
def planted : List UInt8 := [0, 5, 0, 0, 0, 6] ++ List.replicate 253 0 ++ bulk ++ List.replicate 240 0

/-- What this master does: the bytes, the expiry of the timer, the write. -/
def intruder : List Ev :=
  [.modbus (.server 0 (.accept true)) true, arrive 0 planted, .modbus (.server 0 (.sess 0 .timer)) true, arrive 0 (bulk ++ List.replicate 246 1)]

/-- Garbage, cut frames, frames of unknown functions, too long frames and errors of three masters, and a fourth that leaves while its request is
served. -/
def noise : List Ev :=
  [.modbus (.server 0 (.accept true)) true, .modbus (.server 0 (.accept true)) true, .modbus (.server 0 (.accept true)) true, .modbus (.server 0 (.accept true)) true,
   arrive 0 [1, 2, 3], arrive 0 [0, 0, 6, 1, 99, 0, 0, 0, 1], arrive 0 (List.replicate 300 255), .modbus (.server 0 (.sess 0 .timer)) true,
   arrive 1 [0, 0, 0, 0, 255, 255, 1], .modbus (.server 0 (.sess 2 .linkError)) true, arrive 2 [0],
   arrive 3 (Standard.onLink 3 9 (Standard.Request.readHolding 10 2).pdu), arrive 3 [], .serve true]

/-- Nothing is configured. -/
def plain : Ev → Bool
  | .modbus (.config _) _ => false
  | _ => true

theorem plain_new {es : List Ev} (h : es.all plain = true) : ∀ e ∈ begun ++ es, NewServers e := by
  intro e he
  rcases List.mem_append.1 he with he | he
  · exact begun_new e he
  · have := List.all_eq_true.1 h e he
    cases e with
    | modbus e room =>
      cases e with
      | config its => cases this
      | _ => trivial
    | _ => trivial

/-- Non-vacuity of `C87_component_partial`: after the noise one answer waits, and one session of four is connected, two have been released and one waits. -/
example : ∃ n, Tame UInt8.ofNat n ∧ n.says.length = 1 ∧ n.asks = [] ∧
    ((n.modbus.servers 0).map fun S => (List.range 4).map fun i => (S.sess i).st) = some [.connected, .init, .init, .wait] := by
  have h : (match tamely UInt8.ofNat net0 (begun ++ noise) with
      | some n => decide (n.says.length = 1 ∧ n.asks.length = 0 ∧
          ((n.modbus.servers 0).map fun S => (List.range 4).map fun i => (S.sess i).st) = some [.connected, .init, .init, .wait])
      | none => false) = true := by decide +kernel
  split at h
  · rename_i n hn
    have h := of_decide_eq_true h
    exact ⟨n, tame_of _ (plain_new (by decide +kernel)) (.create 1 0) hn, h.1, List.length_eq_zero_iff.1 h.2.1, h.2.2⟩
  · cases h

/-- Non-vacuity of `C87_controller_partial`: before it is served the request of the fourth master is the oldest, the controller is awaiting answers, and the
request is in range. -/
example : ∃ n q, Tame UInt8.ofNat n ∧ n.asks = [(0, 3, q)] ∧ (Running n.log ∧ Testing n.log) ∧ InRegs q := by
  have h : (match tamely UInt8.ofNat net0 (begun ++ noise.dropLast) with
      | some n => (match n.asks with
        | [(0, 3, q)] => runningB n.log && decide (Testing n.log) && decide (q.transactId = 3 ∧ q.func = 3 ∧ q.startItem = 10 ∧ q.numItems = 2)
        | _ => false)
      | none => false) = true := by decide +kernel
  split at h
  · rename_i n hn
    split at h
    · rename_i q hq
      simp only [Bool.and_eq_true, decide_eq_true_eq] at h
      obtain ⟨⟨h1, h2⟩, h3, h4, h5, h6⟩ := h
      exact ⟨n, q, tame_of _ (plain_new (by decide +kernel)) (.create 1 0) hn, hq, ⟨running_of h1, h2⟩, by omega, by omega, by omega⟩
    · cases h
  · cases h

/-- Violation of C87: a master that is connected needs one frame.  A request to read a register under transaction number 16, and one to read registers 1023
and 1024, are forwarded; serving them is undefined behaviour. -/
theorem C87_frame_violated : ∀ w ∈ [Standard.onLink 16 9 (Standard.Request.readHolding 10 1).pdu, Standard.onLink 3 9 (Standard.Request.readHolding 1023 2).pdu],
    net0.run UInt8.ofNat (begun ++ [.modbus (.server 0 (.accept true)) true, arrive 0 w, .serve true]) = .ub := by
  have h : ([Standard.onLink 16 9 (Standard.Request.readHolding 10 1).pdu, Standard.onLink 3 9 (Standard.Request.readHolding 1023 2).pdu].all fun w =>
      match net0.run UInt8.ofNat (begun ++ [.modbus (.server 0 (.accept true)) true, arrive 0 w, .serve true]) with
      | .ub => true
      | _ => false) = true := by decide +kernel
  intro w hw
  have h := List.all_eq_true.1 h w hw
  split at h
  · assumption
  · cases h

/-- Violation of C87: the end of the stream of a master is read while its request waits for the application.  The session decodes on behind the frame, in what
an earlier message left there, and reads beyond its buffer of 512 bytes. -/
theorem C87_leaving_violated : ∃ n, Tame UInt8.ofNat n ∧ n.step UInt8.ofNat (arrive 0 []) = .ub := by
  have h : (match tamely UInt8.ofNat net0 (begun ++ intruder) with
      | some n => (match n.step UInt8.ofNat (arrive 0 []) with
        | .ub => true
        | _ => false)
      | none => false) = true := by decide +kernel
  split at h
  · rename_i n hn
    split at h
    · exact ⟨n, tame_of _ (plain_new (by decide +kernel)) (.create 1 0) hn, by assumption⟩
    · cases h
  · cases h

end Uscada.Masters
