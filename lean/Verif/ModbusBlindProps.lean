import Verif.ModbusBlind
/-!
# Properties of C91
-/

namespace Uscada.Modbus.Blind

open Uscada.Modbus.Server Uscada.Masters Uscada.Controller

/-- What the peers get to see: the bytes, and on which session. -/
def frames (outs : List (Nat × SOut)) : List (Nat × List UInt8) :=
  outs.filterMap fun x => match x.2 with
    | .frame w => some (x.1, w)
    | _ => none

theorem Each.frames {outs outs' : List (Nat × SOut)} (h : Each Alike2 outs outs') : frames outs = frames outs' := by
  induction h with
  | nil => rfl
  | @cons x x' l l' h1 _ ih =>
    obtain ⟨i, y⟩ := x
    obtain ⟨i', y'⟩ := x'
    obtain ⟨e1, e2⟩ := h1
    dsimp only at e1 e2
    subst e1
    unfold Blind.frames at ih ⊢
    rw [List.filterMap_cons, List.filterMap_cons, ih]
    cases y <;> cases y' <;> first | cases e2; rfl | cases e2 | rfl

/-- C91: two servers are created in different memory and have the same history: connections come, arbitrary bytes arrive in arbitrary pieces, links fail,
timers expire, sessions end and are used again, and the application answers sessions that forwarded requests.  Unless a stream ends behind a decoded request, the
second server does what the first one does: peers get the same bytes, sessions end alike, and the forwarded requests agree in all that their function uses. -/
theorem C91_answers_partial {f f' : Nat → Session} {timers links : Nat} {es : List Server.Ev} {outs : List (Nat × SOut)} {v : Server} (hf : Unused f)
    (hf' : Unused f') (h : Served f timers links es outs v) :
    ∃ outs' v', Served f' timers links es outs' v' ∧ frames outs' = frames outs ∧ Each Alike2 outs outs' ∧ v'.free = v.free := by
  obtain ⟨outs', v', h1, h2⟩ := served_twins hf hf' h
  exact ⟨outs', v', h1, h2.outs.frames.symm, h2.outs, h2.free.symm⟩

/-- `Fair` as a test. -/
def fair (v : Server) (outs : List (Nat × SOut)) : Server.Ev → Bool
  | .accept _ => true
  | .sess i (.rsp r _) => decide (r.data.length ≤ 260) && outs.any fun x => decide (x.1 = i) && match x.2 with
    | .fwd _ => true
    | _ => false
  | .sess i (.data (.ok [])) => decide ((v.sess i).st ≠ .wait) || decide ((v.sess i).pdu.pos = 0)
  | .sess _ _ => true

theorem fair_of {v : Server} {outs : List (Nat × SOut)} {e : Server.Ev} (h : fair v outs e = true) : Fair v outs e := by
  cases e with
  | accept => trivial
  | sess i k =>
    cases k with
    | rsp r ok =>
      simp only [fair, Bool.and_eq_true, decide_eq_true_eq, List.any_eq_true] at h
      obtain ⟨h1, x, h2, h3, h4⟩ := h
      refine ⟨h1, ?_⟩
      obtain ⟨j, y⟩ := x
      dsimp only at h3 h4
      subst h3
      cases y with
      | fwd q => exact ⟨q, h2⟩
      | _ => cases h4
    | data rx =>
      intro e1 e2
      cases e1
      simp only [fair, Bool.or_eq_true, decide_eq_true_eq] at h
      exact h.resolve_left fun k => k e2
    | start | linkError | timer => exact fun e1 => by cases e1

/-- Run a history and test it. -/
def goes (v : Server) (outs : List (Nat × SOut)) : List Server.Ev → Option (List (Nat × SOut) × Server)
  | [] => some (outs, v)
  | e :: es => if fair v outs e then
      match v.step e with
      | .ok (v1, o) => goes v1 (outs ++ o) es
      | _ => none
    else none

theorem goes_served {f : Nat → Session} {timers links : Nat} : ∀ (es : List Server.Ev) {es0 : List Server.Ev} {outs outs1 : List (Nat × SOut)} {v v1 : Server},
    Served f timers links es0 outs v → goes v outs es = some (outs1, v1) → Served f timers links (es0 ++ es) outs1 v1
  | [], _, _, _, _, _, h, hg => by
    cases hg
    simpa using h
  | e :: es, es0, outs, outs1, v, v1, h, hg => by
    simp only [goes] at hg
    split at hg
    · rename_i hf
      split at hg
      · rename_i w o hs
        have := goes_served es (.step h (fair_of hf) hs) hg
        simpa using this
      · cases hg
    · cases hg

/-- Non-vacuity of `C91_answers_partial`: the memory is full of 255; a master sends a frame of 8 bytes that claims to write registers, the session decodes bytes of its
memory and waits in vain; then the master's read request arrives in two pieces, is forwarded and answered, and the stream ends. -/
example : ∃ outs v, Served (fun _ => Session.create (fun _ => 255) ⟨9, 9, 9, 9, 9, 9, 9, fun _ => 255, 9⟩) 2 2
    [.accept true, .sess 0 (.data (.ok [0, 7, 0, 0, 0, 2, 1, 16])), .sess 0 .timer, .sess 0 (.data (.ok [0, 7, 0, 0])), .sess 0 (.data (.ok [0, 6, 1, 3, 0, 0, 0, 1])),
      .sess 0 (.rsp ⟨7, 0, true, [5, 6]⟩ true), .sess 0 (.data (.ok []))] outs v ∧ frames outs = [(0, [0, 7, 0, 0, 0, 5, 1, 3, 2, 6, 5])] := by
  have h : ((goes (Server.create (fun _ => Session.create (fun _ => 255) ⟨9, 9, 9, 9, 9, 9, 9, fun _ => 255, 9⟩) 2 2) []
      [.accept true, .sess 0 (.data (.ok [0, 7, 0, 0, 0, 2, 1, 16])), .sess 0 .timer, .sess 0 (.data (.ok [0, 7, 0, 0])),
        .sess 0 (.data (.ok [0, 6, 1, 3, 0, 0, 0, 1])), .sess 0 (.rsp ⟨7, 0, true, [5, 6]⟩ true), .sess 0 (.data (.ok []))]).map fun x => frames x.1) =
      some [(0, [0, 7, 0, 0, 0, 5, 1, 3, 2, 6, 5])] := by decide +kernel
  obtain ⟨⟨outs, v⟩, h1, h2⟩ := Option.map_eq_some_iff.1 h
  exact ⟨outs, v, by simpa using goes_served _ .create h1, h2⟩

/-- C91: `ModbusTestController` answers requests alike that agree in all that their function uses, and ends up with the same registers. -/
theorem C91_controller (t : Test) (serverId sessionId : Nat) {q q' : FwdReq} (h : q.view = q'.view) : t.serve serverId sessionId q = t.serve serverId sessionId q' := by
  have e1 : q.transactId = q'.transactId := congrArg ReqView.transactId h
  have e2 : q.func = q'.func := congrArg ReqView.func h
  have e3 : q.startItem = q'.startItem := congrArg ReqView.startItem h
  have e4 := congrArg ReqView.numItems h
  have e5 := congrArg ReqView.data h
  simp only [FwdReq.view] at e4 e5
  rw [← e2] at e4 e5
  unfold Test.serve
  rw [← e1, ← e2, ← e3]
  split
  · rfl
  dsimp only
  by_cases h1 : q.func = fReadHolding ∨ q.func = fReadInput
  · rw [if_pos h1, if_pos h1]
    have : ¬ (q.func = 5 ∨ q.func = 6) := by
      simp only [fReadHolding, fReadInput] at h1
      omega
    rw [if_neg this, if_neg this] at e4
    rw [Option.some.inj e4]
  rw [if_neg h1, if_neg h1]
  by_cases h2 : q.func = fPresetSingle
  · rw [if_pos h2, if_pos h2]
    have : ¬ (q.func = 1 ∨ q.func = 2 ∨ q.func = 3 ∨ q.func = 4) := by
      simp only [fPresetSingle] at h2
      omega
    rw [if_neg this, if_neg this] at e5
    rw [Option.some.inj e5]
  rw [if_neg h2, if_neg h2]
  by_cases h3 : q.func = fPresetMulti
  · rw [if_pos h3, if_pos h3]
    have : ¬ (q.func = 1 ∨ q.func = 2 ∨ q.func = 3 ∨ q.func = 4) := by
      simp only [fPresetMulti] at h3
      omega
    rw [if_neg this, if_neg this] at e5
    rw [Option.some.inj e5]
  rw [if_neg h3, if_neg h3]

/-- Non-vacuity of `C91_controller`: requests to write a register that differ in the number of items. -/
example : (⟨0, 6, 1, 4, 77, 2, [1, 2]⟩ : FwdReq).view = (⟨0, 6, 1, 4, 1, 2, [1, 2]⟩ : FwdReq).view := rfl

/-- All effects of a history. -/
def effects (v : Server) : List Server.Ev → Exec (List (Nat × SOut))
  | [] => .ok []
  | e :: es => do
    let (v, o) ← v.step e
    let os ← effects v es
    pure (o ++ os)

/-- A read request, transaction 7. -/
def ask : List UInt8 := [0, 7, 0, 0, 0, 6, 1, 3, 0, 0, 0, 1]

/-- The session that has forwarded `ask`. -/
def asked (m : Mem) (a : AduReq) : Session where
  st := .wait
  pdu := { buf := memWrite m 0 ask, pos := 12, len := 12 }
  adu := { a with transactId := 7, addr := 1, func := 3, startItem := 0, numItems := 1, numBytes := 0, dataCap := 260 }
  link := true
  timer := true
  opened := true
  armed := true

/-- The session that has decoded what is behind it. -/
def again (m : Mem) (a : AduReq) (t u : Nat) : Session :=
  { asked m a with
    pdu := { buf := memWrite m 0 ask, pos := 24, len := 12 }
    adu := { (asked m a).adu with transactId := t, addr := u } }

theorem asked_step (m : Mem) (a : AduReq) : Session.step (Session.ready { Session.create m a with link := true, timer := true, opened := true }) (.data (.ok ask)) =
    .ok (asked m a, [.fwd (Session.fwdOf (asked m a).adu)]) := by
  generalize hs : Session.ready { Session.create m a with link := true, timer := true, opened := true } = s
  have hw : memRead (memWrite m 0 ask) 0 12 = ask := rfl
  simp only [memRead, List.range, List.range.loop, List.map, ask, List.cons.injEq, and_true, Nat.zero_add] at hw
  rw [← show ask = [0, 7, 0, 0, 0, 6, 1, 3, 0, 0, 0, 1] from rfl] at hw
  have hr : s.pdu.received (ask.take s.pdu.capacity) = { buf := memWrite m 0 ask, pos := 0, len := 12 } := by rw [← hs]; rfl
  have hp : parseReq (memWrite m 0 ask) 0 s.adu = (12, (asked m a).adu, true) := by
    rw [← hs]
    simp [parseReq, beAt, hw, maxAddr, isReadFunc, pduLen, maxPduLen, fReadCoil, fReadDiscrete, fReadHolding, fReadInput, fForceCoil, fPresetSingle, asked,
      Session.ready, Session.create, maxAduLen]
  have he : Session.evaluate { s with pdu := { buf := memWrite m 0 ask, pos := 0, len := 12 } } =
      .ok ({ asked m a with st := .connected }, [.fwd (Session.fwdOf (asked m a).adu)], .done) := by
    rw [Session.evaluate_eq _ (by rw [← hs]; rfl) (by rw [← hs]; exact Nat.zero_le _) (fun _ => rfl)]
    have h4 : beAt (memWrite m 0 ask) 4 = 6 := by simp [beAt, hw]
    simp only [Session.evalSpec, h4, Session.decoded, hp]
    rw [← hs]
    rfl
  have hst : s.st = .connected := by rw [← hs]; rfl
  have hl : s.link = true := by rw [← hs]; rfl
  have ho : s.opened = true := by rw [← hs]; rfl
  have hn : s.pdu.len = 0 := by rw [← hs]; rfl
  have hv : s.receive (.ok ask) = .ok ({ asked m a with st := .connected }, [.fwd (Session.fwdOf (asked m a).adu)], .done) := by
    unfold Session.receive
    rw [if_neg (by simp [hn]), if_neg (by simp [hl]), if_neg (by simp [ho])]
    dsimp only
    rw [hr, he]
  unfold Session.step
  dsimp only
  rw [if_pos hl]
  unfold Session.onData
  rw [hst]
  dsimp only
  rw [hv, Exec.ok_bind]
  dsimp only
  rw [Session.transit_wait rfl rfl]
  rfl

theorem again_step {m : Mem} (a : AduReq) {x y u : UInt8} (hm : memRead m 12 12 = [x, y, 0, 0, 0, 6, u, 3, 0, 0, 0, 1]) (hu : u.toNat ≤ 247) :
    (asked m a).step (.data (.ok [])) =
      .ok (again m a (x.toNat * 256 + y.toNat) u.toNat, [.fwd (Session.fwdOf (again m a (x.toNat * 256 + y.toNat) u.toNat).adu)]) := by
  simp only [memRead, List.range, List.range.loop, List.map, List.cons.injEq, and_true] at hm
  obtain ⟨m0, m1, m2, m3, m4, m5, m6, m7, m8, m9, m10, m11⟩ := hm
  have hx : ∀ i, 12 ≤ i → memWrite m 0 ask i = m i := fun i hi => if_neg (by simp [ask]; omega)
  have hp : parseReq (memWrite m 0 ask) 12 (asked m a).adu = (12, (again m a (x.toNat * 256 + y.toNat) u.toNat).adu, true) := by
    simp [parseReq, beAt, hx, m0, m1, m2, m3, m4, m5, m6, m7, m8, m9, m10, m11, maxAddr, hu, isReadFunc, pduLen, maxPduLen, fReadCoil, fReadDiscrete, fReadHolding,
      fReadInput, fForceCoil, fPresetSingle, again, asked]
  have hd : decodeReq { buf := memWrite m 0 ask, pos := 12, len := 12 } (asked m a).adu =
      .ok ({ buf := memWrite m 0 ask, pos := 24, len := 12 }, (again m a (x.toNat * 256 + y.toNat) u.toNat).adu, true) := by
    rw [decodeReq_eq _ _ (by show 12 + 268 ≤ 512; omega) (by show 256 ≤ 260; omega), hp]
    rfl
  have hw : (asked m a).pdu.received (([] : List UInt8).take (asked m a).pdu.capacity) = (asked m a).pdu := by
    simp [PduBuf.received, memWrite_nil]
  have he : (asked m a).evaluate = .ok (again m a (x.toNat * 256 + y.toNat) u.toNat,
      [.fwd (Session.fwdOf (again m a (x.toNat * 256 + y.toNat) u.toNat).adu)], .done) := by
    unfold Session.evaluate
    have h4 : beAt (memWrite m 0 ask) 4 = 6 := by simp [beAt, memWrite, ask]
    have hp : aduPktLen (asked m a).pdu = 6 := h4
    have hl : (asked m a).pdu.len = 12 := rfl
    have hA : maxAduLen = 260 := rfl
    rw [if_neg (by simp [isAduHdrReceived, hl, aduHdrLen]), if_neg (by simp [isAduDataLenValid, hp, aduHdrLen, hA]), if_neg (by simp [isAduReceived, hp, hl]),
      if_neg (by simp [isAduValid, hp, hl, aduHdrLen, hA])]
    rw [show (asked m a).pdu = { buf := memWrite m 0 ask, pos := 12, len := 12 } from rfl, hd]
    rfl
  have hr : (asked m a).receive (.ok []) = (asked m a).evaluate := by
    unfold Session.receive
    rw [if_neg (by show ¬ 12 > 260; omega), if_neg (by simp [asked]), if_neg (by simp [asked])]
    dsimp only
    rw [hw]
  show (Session.onData (asked m a) (.ok [])) = _
  unfold Session.onData
  show (do
    let (s, o, r) ← (asked m a).receive (.ok [])
    match r with
    | .error => let (s, o') ← s.transit .init; pure (s, o ++ o')
    | _ => pure (s, o)) = _
  rw [hr, he]
  rfl

theorem again_send (m : Mem) (a : AduReq) (x y u d0 d1 : UInt8) :
    (again m a (x.toNat * 256 + y.toNat) u.toNat).step (.rsp ⟨x.toNat * 256 + y.toNat, 0, true, [d0, d1]⟩ true) =
      .ok (Session.ready (again m a (x.toNat * 256 + y.toNat) u.toNat), [.frame [x, y, 0, 0, 0, 5, u, 3, 2, d1, d0]]) := by
  have hs : ∀ t, (again m a t u.toNat).send ⟨t, 0, true, [d0, d1]⟩ true =
      .ok ([.frame [UInt8.ofNat (t / 256), UInt8.ofNat t, 0, 0, 0, 5, UInt8.ofNat u.toNat, 3, 2, d1, d0]], .done) := by
    intro t
    generalize hr : (⟨t, 0, true, [d0, d1]⟩ : AppRsp) = r
    have ha : (again m a t u.toNat).rspOf r = 
        { transactId := t, func := 3, addr := u.toNat, error := 0, startItem := 0, numItems := 1, numBytes := 2, data := fun i => [d0, d1].getD i 0 } := by subst hr; rfl
    have hR : RspOk ((again m a t u.toNat).rspOf r) := by
      rw [ha]
      exact .inr (.inl ⟨.inl rfl, (by show 2 % 2 = 0; rfl), (by show 2 ≤ 251; omega)⟩)
    have hF : Framed (rspFrame ((again m a t u.toNat).rspOf r)) := Exchange.framed_rsp hR
    obtain ⟨b, ok, e1, _, e2, e3⟩ := encodeRsp_eq (fun _ => 0) ((again m a t u.toNat).rspOf r) (by rw [ha]; show 2 ≤ 260; omega)
    have hok := e2.2 hR
    subst hok
    obtain ⟨e3, _⟩ := e3 rfl
    have hval : isAduValid b = true := by
      have hA : maxAduLen = 260 := rfl
      have h4 := Client.wordAt_content b 4 (by rw [e3.2.1]; have := hF.1; omega)
      rw [e3.content] at h4
      have hl := e3.2.1
      obtain ⟨f1, f2⟩ := hF
      unfold beAt at h4
      simp only [Nat.reduceAdd] at h4
      simp [isAduValid, aduPktLen, aduHdrLen, aduLenOffset, hA]
      omega
    rw [Session.send_body]
    rw [e1]
    have hc := e3.content
    rw [ha] at hc
    rw [if_neg (by subst hr; simp [again, asked]), if_neg (by subst hr; simp), if_neg (by subst hr; show ¬ 2 > 260; omega)]
    simp only [Exec.ok_bind, Bool.true_eq_false, if_false, hval]
    rw [if_neg (by simp [again, asked]), if_pos (by simp [again, asked]), hc]
    simp [rspFrame, fError, isRegFunc, fReadHolding, hdr, be16, regBytes, Exec.pure_eq]
  have hst : (again m a (x.toNat * 256 + y.toNat) u.toNat).st = .wait := rfl
  simp only [Session.step, Session.onRsp, hst, hs, Exec.ok_bind]
  rw [Session.transit_connected (by simp [hst]) rfl]
  have h1 : UInt8.ofNat ((x.toNat * 256 + y.toNat) / 256) = x := by
    rw [show (x.toNat * 256 + y.toNat) / 256 = x.toNat by have := y.toNat_lt; omega]
    simp
  have h2 : UInt8.ofNat (x.toNat * 256 + y.toNat) = y := by
    apply UInt8.toNat_inj.1
    have := y.toNat_lt
    simp
  rw [h1, h2]
  simp

theorem session_effect {v : Server} {s s' : Session} {o : List SOut} {e : Session.Ev} (he : e ≠ .start) (h0 : v.sess 0 = s) (h : s.step e = .ok (s', o))
    (hr : .released ∉ o) : v.step (.sess 0 e) = .ok ({ v with sess := Server.set v.sess 0 s' }, o.map fun x => (0, x)) := by
  have hstep : v.step (.sess 0 e) = (if 0 ≥ maxNumSession then .ub else do
      let (s, o) ← (v.sess 0).step e
      pure (absorb v 0 s o, o.map fun x => (0, x))) := by
    cases e <;> first | exact absurd rfl he | rfl
  rw [hstep, if_neg (by simp [maxNumSession]), h0, h, Exec.ok_bind]
  dsimp only
  unfold absorb
  rw [if_neg hr]
  rfl

theorem accept_effect (m : Mem) (a : AduReq) : ∃ v, (Server.create (fun _ => Session.create m a) 1 1).step (.accept true) = .ok (v, []) ∧
    v.sess 0 = Session.ready { Session.create m a with link := true, timer := true, opened := true } := by
  obtain ⟨fr, hfr⟩ : ∃ fr, List.range maxNumSession = 0 :: fr := ⟨_, rfl⟩
  have h : Session.step { (Session.create m a) with timer := true, link := true } .start =
      .ok (Session.ready { Session.create m a with link := true, timer := true, opened := true }, []) := rfl
  have n10 : ¬ (1 = 0) := by omega
  simp only [Server.step, Server.create, hfr, prepare]
  simp only [if_neg n10]
  simp only [Bool.true_eq_false, if_false, set_same, h, Exec.ok_bind, absorb, List.not_mem_nil, List.map_nil]
  refine ⟨_, rfl, ?_⟩
  dsimp only
  rw [set_same]

/-- Violation of C91: a master asks for a register and shuts down its sending side while the request waits for the application.  The session decodes what its
memory holds behind the request.  If it looks like a read request, the master gets an answer that reveals the bytes `x`, `y` and `u` of this memory. -/
theorem C91_leaving_violated (m : Mem) (a : AduReq) (x y u d0 d1 : UInt8) (hm : memRead m 12 12 = [x, y, 0, 0, 0, 6, u, 3, 0, 0, 0, 1]) (hu : u.toNat ≤ 247) :
    ∃ q q', effects (Server.create (fun _ => Session.create m a) 1 1)
      [.accept true, .sess 0 (.data (.ok ask)), .sess 0 (.data (.ok [])), .sess 0 (.rsp ⟨x.toNat * 256 + y.toNat, 0, true, [d0, d1]⟩ true)] =
      .ok [(0, .fwd q), (0, .fwd q'), (0, .frame [x, y, 0, 0, 0, 5, u, 3, 2, d1, d0])] := by
  obtain ⟨v, h0, s0⟩ := accept_effect m a
  refine ⟨Session.fwdOf (asked m a).adu, Session.fwdOf (again m a (x.toNat * 256 + y.toNat) u.toNat).adu, ?_⟩
  simp only [effects]
  rw [h0, Exec.ok_bind]
  dsimp only
  rw [session_effect (by simp) s0 (asked_step m a) (by simp), Exec.ok_bind]
  dsimp only
  rw [session_effect (by simp) (by dsimp only; rw [set_same]) (again_step a hm hu) (by simp), Exec.ok_bind]
  dsimp only
  rw [session_effect (by simp) (by dsimp only; rw [set_same]) (again_send m a x y u d0 d1) (by simp), Exec.ok_bind]
  rfl

/-- Non-vacuity of `C91_leaving_violated`: memories with the same history and different answers. -/
example : ∃ m m' : Mem, memRead m 12 12 = [1, 2, 0, 0, 0, 6, 9, 3, 0, 0, 0, 1] ∧ memRead m' 12 12 = [3, 4, 0, 0, 0, 6, 8, 3, 0, 0, 0, 1] :=
  ⟨memWrite (fun _ => 0) 12 [1, 2, 0, 0, 0, 6, 9, 3, 0, 0, 0, 1], memWrite (fun _ => 0) 12 [3, 4, 0, 0, 0, 6, 8, 3, 0, 0, 0, 1], rfl, rfl⟩

/-- A request to write one register. -/
def put : List UInt8 := [0, 7, 0, 0, 0, 6, 1, 6, 0, 0, 0, 42]

/-- Violation of C91: the application gets to see uninitialised memory.  The number of items of a request to write one register is whatever the field of the stored
request contains. -/
theorem C91_count_violated (m : Mem) (a : AduReq) :
    ∃ q, effects (Server.create (fun _ => Session.create m a) 1 1) [.accept true, .sess 0 (.data (.ok put))] = .ok [(0, .fwd q)] ∧ q.numItems = a.numItems := by
  obtain ⟨v, h0, s0⟩ := accept_effect m a
  generalize hs : Session.ready { Session.create m a with link := true, timer := true, opened := true } = s at s0
  have hF : s.Fresh := by rw [← hs]; exact ⟨rfl, rfl, rfl, rfl, rfl, rfl, rfl, rfl, Nat.zero_le _⟩
  have g := Session.seg_last (w := put) (p := []) (c := put) hF (by simp) ⟨by decide, by decide⟩
  rw [Session.at_nil hF] at g
  have hr : (s.pdu.received put).buf = memWrite m 0 put := by rw [← hs]; rfl
  have hw : memRead (memWrite m 0 put) 0 12 = put := rfl
  simp only [memRead, List.range, List.range.loop, List.map, put, List.cons.injEq, and_true, Nat.zero_add] at hw
  rw [← show put = [0, 7, 0, 0, 0, 6, 1, 6, 0, 0, 0, 42] from rfl] at hw
  have hp : (parseReq (memWrite m 0 put) 0 s.adu).2.2 = true ∧ (parseReq (memWrite m 0 put) 0 s.adu).2.1.numItems = s.adu.numItems := by
    simp [parseReq, beAt, hw, maxAddr, isReadFunc, isSingleFunc, fReadCoil, fReadDiscrete, fReadHolding, fReadInput, fForceCoil, fPresetSingle]
  have ho : Session.finalOut s put = [.fwd (Session.fwdOf ({ s with pdu := s.pdu.received put } : Session).decoded.adu)] := by
    unfold Session.finalOut
    rw [hr, if_pos hp.1]
  rw [ho] at g
  refine ⟨Session.fwdOf ({ s with pdu := s.pdu.received put } : Session).decoded.adu, ?_, ?_⟩
  · simp only [effects]
    rw [h0, Exec.ok_bind]
    dsimp only
    rw [session_effect (by simp) s0 g (by simp), Exec.ok_bind]
    rfl
  · show (parseReq (s.pdu.received put).buf 0 s.adu).2.1.numItems = _
    rw [hr, hp.2, ← hs]
    rfl

end Uscada.Modbus.Blind
