import Verif.ModbusClientBlind
/-!
# Properties of C92
-/

namespace Uscada.Modbus.Client

open AduStorage (Pending pendingOf)

/-- All that can be observed of a client that is created in a memory: the events with their effects, or that an event leaves what C++ defines. -/
def observed (m : Mem) (es : List Ev) : Exec Trace := (create m).run es >>= fun x => pure x.2

/-- C92: two clients are created in different memory and have the same history: requests are submitted, connections come and go, arbitrary bytes arrive in
arbitrary pieces, calls fail and timers expire.  If no slave sends a stub of an answer and none closes the connection behind an answer while another request
waits, then the application is told the same and the slaves get the same bytes. -/
theorem C92_reports_partial (m m' : Mem) (es : List Ev) (h : AllClear (create m) es) : observed m' es = observed m es := by
  have hp : Pair (create m) (create m') :=
    ⟨PduBuf.fresh m', rfl, rfl, ⟨fun _ => rfl, fun _ => rfl⟩, fun i hi => absurd hi (Nat.not_lt_zero i), fun k => absurd rfl k⟩
  have := run_pair es hp h
  unfold observed
  generalize (create m).run es = x, (create m').run es = y at *
  cases this <;> rfl

/-- `Clear` as a test. -/
def clear (c : Client) : Ev → Bool
  | .data (.ok bs) => match c.pending with
    | [] => true
    | p :: _ => let w := c.pdu.content ++ bs.take c.pdu.capacity
      (decide (bs ≠ []) || decide (c.pdu.pos = 0)) && (decide (c.pdu.pos ≠ 0) || decide (¬ (w.length < 9 ∧ wordAt w 4 + 6 = w.length ∧ wordAt w 2 = 0 ∧
        wordAt w 0 = p.transactId ∧ (w.length < 7 ∨ byteAt w 6 = p.addr) ∧ (w.length < 8 ∨ byteAt w 7 = 0x8f))))
  | _ => true

theorem clear_of {c : Client} {e : Ev} (h : clear c e = true) : Clear c e := by
  cases e with
  | data rx =>
    cases rx with
    | ok bs =>
      intro p ps hp
      simp only [clear, hp, Bool.and_eq_true, Bool.or_eq_true, decide_eq_true_eq] at h
      refine ⟨fun e => h.1.resolve_left fun k => k e, fun k s => ?_⟩
      obtain ⟨s1, s2, s3, s4, s5, s6⟩ := s
      refine (h.2.resolve_left fun n => n k) ⟨s1, s2, s3, s4, ?_, ?_⟩
      · by_cases g : 7 ≤ (c.pdu.content ++ bs.take c.pdu.capacity).length
        · exact .inr (s5 g)
        · exact .inl (by omega)
      · by_cases g : 8 ≤ (c.pdu.content ++ bs.take c.pdu.capacity).length
        · exact .inr (s6 g)
        · exact .inl (by omega)
    | na => trivial
    | error => trivial
  | _ => trivial

def allClear (c : Client) : List Ev → Bool
  | [] => true
  | e :: es => clear c e && match c.step e with
    | .ok (c1, _) => allClear c1 es
    | _ => true

theorem allClear_of : ∀ {es : List Ev} {c : Client}, allClear c es = true → AllClear c es
  | [], _, _ => trivial
  | e :: es, c, h => by
    simp only [allClear, Bool.and_eq_true] at h
    refine ⟨clear_of h.1, fun c1 o k => allClear_of ?_⟩
    rw [k] at h
    exact h.2

/-- Non-vacuity of `C92_reports_partial`: the answer to a first request arrives in two pieces, a second request gets a frame of eight bytes that is no stub, a third
one times out, and then the slave closes the connection. -/
example : AllClear (create fun _ => 255) (connectEvs ++ [.req (sampleCall 5), .req (sampleCall 6), .req (sampleCall 7), .timer true true,
      .data (.ok [0, 5, 0, 0, 0, 7]), .data (.ok [9, 3, 4, 1, 2, 3, 4]), .timer true true, .data (.ok [0, 6, 0, 0, 0, 2, 9, 3]), .timer true true,
      .timer true true, .timer true true, .data (.ok [])]) ∧
    responses (connectEvs ++ [.req (sampleCall 5), .req (sampleCall 6), .req (sampleCall 7), .timer true true,
      .data (.ok [0, 5, 0, 0, 0, 7]), .data (.ok [9, 3, 4, 1, 2, 3, 4]), .timer true true, .data (.ok [0, 6, 0, 0, 0, 2, 9, 3]), .timer true true,
      .timer true true, .timer true true, .data (.ok [])]) = some
      [{ clientId := 1, transactId := 5, success := true, error := 0, data := [2, 1, 4, 3] },
       { clientId := 1, transactId := 6, success := false, error := 0, data := [] },
       { clientId := 1, transactId := 7, success := false, error := 0, data := [] }] :=
  ⟨allClear_of (by decide +kernel), by decide +kernel⟩

/-- Memory that completes a stub of an answer to an exception with the code `e`. -/
def completes (e : UInt8) (a : Nat) : Mem := fun i => if i = 6 then UInt8.ofNat a else if i = 7 then 0x8f else e

/-- Violation of C92: whatever the waiting request and the stub, memory decides what the application is told.  For every byte there is a memory that makes the
client report this byte as the exception code of the slave. -/
theorem C92_stub_violated {c : Client} {p : Pending} {ps : List Pending} {w : List UInt8} (hst : c.st = .receive) (ho : c.opened = true) (hl : c.pdu.len = 0)
    (h0 : c.pdu.pos = 0) (hp : c.pending = p :: ps) (ha : p.addr < 256) (hw : Stub w p) (e : UInt8) :
    ∃ c', step { c with pdu := { c.pdu with buf := completes e p.addr } } (.data (.ok w)) = .ok (c', [rspModbusError p.clientId p.transactId e.toNat]) := by
  obtain ⟨w1, w2, w3, w4, w5, w6⟩ := hw
  have hA : maxAduLen = 260 := rfl
  have ht : w.take c.pdu.capacity = w := List.take_of_length_le (by simp only [PduBuf.capacity, hl, maxLen]; omega)
  have hm : ∀ i, i < w.length → memWrite (completes e p.addr) 0 w i = w.getD i 0 := fun i hi => by
    unfold memWrite
    rw [if_pos ⟨Nat.zero_le _, by omega⟩]
    rfl
  have hn : ∀ i, w.length ≤ i → memWrite (completes e p.addr) 0 w i = completes e p.addr i := fun i hi => by
    unfold memWrite
    rw [if_neg (by omega)]
  have hb : ∀ i, i + 1 < w.length → beAt (memWrite (completes e p.addr) 0 w) i = wordAt w i := fun i hi => by
    simp only [beAt, hm i (by omega), hm (i + 1) hi]
    rfl
  have a6 : (memWrite (completes e p.addr) 0 w 6).toNat = p.addr := by
    by_cases k : 7 ≤ w.length
    · rw [hm 6 (by omega)]
      exact w5 k
    · rw [hn 6 (by omega)]
      show (UInt8.ofNat p.addr).toNat = p.addr
      rw [UInt8.toNat_ofNat']
      exact Nat.mod_eq_of_lt ha
  have a7 : (memWrite (completes e p.addr) 0 w 7).toNat = fError := by
    by_cases k : 8 ≤ w.length
    · rw [hm 7 (by omega)]
      exact w6 k
    · rw [hn 7 (by omega)]
      rfl
  have a8 : memWrite (completes e p.addr) 0 w 8 = e := by
    rw [hn 8 (by omega)]
    rfl
  unfold step onData
  dsimp only
  rw [hst]
  dsimp only
  unfold receive
  dsimp only
  rw [if_neg (by rw [hl]; omega), if_neg (by rw [ho]; decide)]
  have hc : PduBuf.capacity { c.pdu with buf := completes e p.addr } = c.pdu.capacity := rfl
  rw [hc, ht, hp]
  dsimp only
  rw [evaluate_ok { c with st := .receive, pending := p :: ps, pdu := PduBuf.received { c.pdu with buf := completes e p.addr } w } p (fun _ => h0)]
  simp only [PduBuf.received, hl, Nat.zero_add]
  have hv : verdict (memWrite (completes e p.addr) 0 w) p = rspModbusError p.clientId p.transactId e.toNat := by
    unfold verdict
    dsimp only
    rw [hb 2 (by omega), hb 0 (by omega), if_neg (by rw [w3]; simp), if_neg (by rw [w4]; simp), if_neg (by rw [a6]; simp), if_pos a7, a8]
  rw [hb 4 (by omega), hv, if_neg (by omega), if_neg (by omega), if_neg (by omega), if_neg (by omega), Exec.ok_bind]
  exact ⟨_, rfl⟩

/-- The answers of a client that is created in a memory. -/
def answers (m : Mem) (es : List Ev) : Option (List CRsp) :=
  match observed m es with
  | .ok tr => some (tr.flatMap fun x => x.2.filterMap fun
      | .rsp r => some r
      | .frame _ => none)
  | _ => none

/-- Non-vacuity of `C92_stub_violated`: a client that is created, connects and sends its first request is in such a state, and six bytes are a stub. -/
example : Stub [0, 5, 0, 0, 0, 0] (pendingOf (sampleCall 5)) ∧
    answers (completes 11 9) (connectEvs ++ [.req (sampleCall 5), .timer true true, .data (.ok [0, 5, 0, 0, 0, 0])]) =
      some [{ clientId := 1, transactId := 5, success := true, error := 11, data := [] }] ∧
    answers (completes 2 9) (connectEvs ++ [.req (sampleCall 5), .timer true true, .data (.ok [0, 5, 0, 0, 0, 0])]) =
      some [{ clientId := 1, transactId := 5, success := true, error := 2, data := [] }] ∧
    answers (fun _ => 0) (connectEvs ++ [.req (sampleCall 5), .timer true true, .data (.ok [0, 5, 0, 0, 0, 0])]) =
      some [{ clientId := 1, transactId := 5, success := false, error := 0, data := [] }] :=
  ⟨⟨by decide, by decide, by decide, by decide, by decide, by decide⟩, by decide +kernel, by decide +kernel, by decide +kernel⟩

/-- A client with two requests sends the first one. -/
def asks : List Ev := connectEvs ++ [.req (sampleCall 5), .req (sampleCall 7), .timer true true]

theorem asks_run (m : Mem) : (create m).run asks = .ok
    (⟨.receive, [pendingOf (sampleCall 5), pendingOf (sampleCall 7)], PduBuf.fresh m, true, true⟩,
      [(.start true, []), (.connected, []), (.req (sampleCall 5), []), (.req (sampleCall 7), []), (.timer true true, [.frame [0, 5, 0, 0, 0, 6, 9, 3, 0, 7, 0, 2]])]) := rfl

theorem answered_step (m : Mem) : step ⟨.receive, [pendingOf (sampleCall 5), pendingOf (sampleCall 7)], PduBuf.fresh m, true, true⟩ (.data (.ok (sampleAnswer 5))) =
    .ok (⟨.send, [pendingOf (sampleCall 7)], ⟨memWrite m 0 (sampleAnswer 5), 13, 13⟩, true, true⟩, [.rsp ⟨1, 5, true, 0, [2, 1, 4, 3]⟩]) := by
  have hw : memRead (memWrite m 0 (sampleAnswer 5)) 0 13 = sampleAnswer 5 := rfl
  simp only [memRead, List.range, List.range.loop, List.map, sampleAnswer, List.cons.injEq, and_true, Nat.zero_add] at hw
  rw [← show sampleAnswer 5 = [0, 5, 0, 0, 0, 7, 9, 3, 4, 1, 2, 3, 4] from rfl] at hw
  obtain ⟨w0, w1, w2, w3, w4, w5, w6, w7, w8, w9, w10, w11, w12⟩ := hw
  have b4 : beAt (memWrite m 0 (sampleAnswer 5)) 4 = 7 := by simp [beAt, w4, w5]
  have e : (PduBuf.fresh m).received (List.take (PduBuf.fresh m).capacity (sampleAnswer 5)) = ⟨memWrite m 0 (sampleAnswer 5), 0, 13⟩ := rfl
  have hv : verdict (memWrite m 0 (sampleAnswer 5)) (pendingOf (sampleCall 5)) = .rsp ⟨1, 5, true, 0, [2, 1, 4, 3]⟩ := by
    simp [verdict, beAt, w0, w1, w2, w3, w4, w5, w6, w7, w8, w9, w10, w11, w12, pendingOf, sampleCall, fError, fReadHolding, isRegFunc, regBytes, rspSuccess]
  have hp : (parseRsp (memWrite m 0 (sampleAnswer 5)) 0 blankRsp).1 = 13 := by
    simp [parseRsp, beAt, w2, w3, w4, w5, w7, w8, fError, fReadHolding, isRegFunc]
  unfold step onData receive
  dsimp only
  rw [if_neg (by show ¬ 0 > 260; decide), if_neg (by decide), e, evaluate_ok _ _ (fun _ => rfl)]
  dsimp only
  rw [b4, hv, hp, if_neg (by decide), if_neg (by decide), if_neg (by decide), if_neg (by decide)]
  rfl

/-- Memory behind the answer that looks like an answer to the next request. -/
theorem left_step (m : Mem) (x y : UInt8) (hm : memRead m 13 11 = [0, 7, 0, 0, 0, 5, 9, 3, 2, x, y]) :
    ∃ c, step ⟨.send, [pendingOf (sampleCall 7)], ⟨memWrite m 0 (sampleAnswer 5), 13, 13⟩, true, true⟩ (.data (.ok [])) = .ok (c, [.rsp ⟨1, 7, true, 0, [y, x]⟩]) := by
  have hw : memRead (memWrite m 0 (sampleAnswer 5)) 0 13 = sampleAnswer 5 := rfl
  have hr : memRead (memWrite m 0 (sampleAnswer 5)) 13 11 = memRead m 13 11 := rfl
  rw [hm] at hr
  simp only [memRead, List.range, List.range.loop, List.map, sampleAnswer, List.cons.injEq, and_true, Nat.zero_add, Nat.reduceAdd] at hw hr
  rw [← show sampleAnswer 5 = [0, 5, 0, 0, 0, 7, 9, 3, 4, 1, 2, 3, 4] from rfl] at hw hr
  obtain ⟨w0, w1, w2, w3, w4, w5, w6, w7, w8, w9, w10, w11, w12⟩ := hw
  obtain ⟨r0, r1, r2, r3, r4, r5, r6, r7, r8, r9, r10⟩ := hr
  generalize hM : memWrite m 0 (sampleAnswer 5) = M at *
  have e : PduBuf.received ⟨M, 13, 13⟩ (List.take (PduBuf.capacity ⟨M, 13, 13⟩) []) = ⟨M, 13, 13⟩ := by
    simp [PduBuf.received, memWrite_nil]
  have hp : parseRsp M 13 blankRsp = (11, { blankRsp with transactId := 7, addr := 9, func := 3, numBytes := 2, data := memWrite blankRsp.data 0 [y, x] }, true) := by
    simp [parseRsp, beAt, r0, r1, r2, r3, r4, r5, r6, r7, r8, r9, r10, fError, fReadHolding, isRegFunc, regBytes]
  unfold step onData receive
  dsimp only
  rw [if_neg (by decide), if_neg (by decide), e]
  unfold evaluate evaluateIn
  have e1 : isAduHdrReceived ⟨M, 13, 13⟩ = true := rfl
  have e2 : isAduDataLenValid ⟨M, 13, 13⟩ = true := by simp [isAduDataLenValid, aduPktLen, aduLenOffset, w4, w5, aduHdrLen, maxAduLen, maxPduLen]
  have e3 : isAduReceived ⟨M, 13, 13⟩ = true := by simp [isAduReceived, aduPktLen, aduLenOffset, w4, w5]
  have e4 : isAduValid ⟨M, 13, 13⟩ = true := by simp [isAduValid, aduPktLen, aduLenOffset, w4, w5, aduHdrLen, maxAduLen, maxPduLen]
  dsimp only
  rw [e1, e2, e3, e4, decodeRsp_eq _ _ (by show 13 + 264 ≤ 512; decide)]
  dsimp only
  rw [hp]
  exact ⟨_, rfl⟩

/-- Violation of C92: the slave closes the connection behind its answer while another request waits.  If the memory behind the answer looks like an answer
to the waiting request, which has not been sent, then the application is told that the request has succeeded, and gets bytes of this memory. -/
theorem C92_leaving_violated (m : Mem) (x y : UInt8) (hm : memRead m 13 11 = [0, 7, 0, 0, 0, 5, 9, 3, 2, x, y]) :
    answers m (asks ++ [.data (.ok (sampleAnswer 5)), .data (.ok [])]) =
      some [{ clientId := 1, transactId := 5, success := true, error := 0, data := [2, 1, 4, 3] },
       { clientId := 1, transactId := 7, success := true, error := 0, data := [y, x] }] := by
  obtain ⟨c, h⟩ := left_step m x y hm
  have hr := run_append (es' := [.data (.ok (sampleAnswer 5)), .data (.ok [])]) (asks_run m)
  simp only [run, answered_step, h, Exec.ok_bind] at hr
  unfold answers observed
  rw [hr]
  rfl

/-- Non-vacuity of `C92_leaving_violated`: memories with the same history and different answers. -/
example : ∃ m m' : Mem, memRead m 13 11 = [0, 7, 0, 0, 0, 5, 9, 3, 2, 1, 2] ∧ memRead m' 13 11 = [0, 7, 0, 0, 0, 5, 9, 3, 2, 3, 4] :=
  ⟨memWrite (fun _ => 0) 13 [0, 7, 0, 0, 0, 5, 9, 3, 2, 1, 2], memWrite (fun _ => 0) 13 [0, 7, 0, 0, 0, 5, 9, 3, 2, 3, 4], rfl, rfl⟩

end Uscada.Modbus.Client
