import Verif.ModbusSession
import Verif.ModbusClientProps
/-!
# Lemmas about Modbus server sessions
-/

namespace Uscada.Modbus

open Client (wordAt byteAt content_received buf_eq_content wordAt_content swapPairs regBytes_swap
  drop_content)

/-! ## Frames as byte strings -/

/-- The request frames a server accepts, stated on the bytes: complete, protocol id 0, slave address at
most 247, and the layout of the function. -/
def AcceptableReq (w : List UInt8) : Prop :=
  w.length < 260 ∧ wordAt w 4 + 6 = w.length ∧ wordAt w 2 = 0 ∧ byteAt w 6 ≤ 247 ∧
  (((byteAt w 7 = 1 ∨ byteAt w 7 = 2) ∧ w.length = 12 ∧ wordAt w 10 ≤ 2008) ∨
   ((byteAt w 7 = 3 ∨ byteAt w 7 = 4) ∧ w.length = 12 ∧ wordAt w 10 ≤ 125) ∨
   ((byteAt w 7 = 5 ∨ byteAt w 7 = 6) ∧ w.length = 12) ∨
   (byteAt w 7 = 16 ∧ byteAt w 12 = 2 * wordAt w 10 ∧ w.length = 13 + byteAt w 12))

instance (w : List UInt8) : Decidable (AcceptableReq w) := by
  unfold AcceptableReq; infer_instance

/-- What a request frame says. -/
def frameReq (w : List UInt8) : ReqView where
  transactId := wordAt w 0
  addr := byteAt w 6
  func := byteAt w 7
  startItem := wordAt w 8
  numItems := if byteAt w 7 = 5 ∨ byteAt w 7 = 6 then none else some (wordAt w 10)
  data := if byteAt w 7 = 1 ∨ byteAt w 7 = 2 ∨ byteAt w 7 = 3 ∨ byteAt w 7 = 4 then none
    else if byteAt w 7 = 5 ∨ byteAt w 7 = 6 then some (swapPairs (w.drop 10))
    else some (swapPairs (w.drop 13))

theorem readFunc_iff (f : Nat) : isReadFunc f ↔ (f = 1 ∨ f = 2 ∨ f = 3 ∨ f = 4) := Iff.rfl
theorem singleFunc_iff (f : Nat) : isSingleFunc f ↔ (f = 5 ∨ f = 6) := Iff.rfl

theorem pduLen_read {f n : Nat} (h : isReadFunc f) :
    pduLen f n ≤ maxPduLen ↔ ((f = 1 ∨ f = 2) → n ≤ 2008) ∧ ((f = 3 ∨ f = 4) → n ≤ 125) := by
  have hM : maxPduLen = 253 := rfl
  rcases h with h | h | h | h <;> subst h <;>
    simp [pduLen, fReadCoil, fReadDiscrete, fReadHolding, fReadInput, fForceCoil, fPresetSingle, hM] <;> omega

/-- Decoding a complete frame: acceptance and content are those of the byte string. -/
theorem parseReq_content (b : PduBuf) (a : AduReq) (h6 : 6 ≤ b.len) (hv : isAduValid b = true) :
    ((parseReq b.buf 0 a).2.2 = true ↔ AcceptableReq b.content) ∧
    ((parseReq b.buf 0 a).2.2 = true →
      (parseReq b.buf 0 a).2.1.view = frameReq b.content ∧
      (parseReq b.buf 0 a).2.1.transactId = wordAt b.content 0 ∧
      (parseReq b.buf 0 a).2.1.addr = byteAt b.content 6 ∧
      (parseReq b.buf 0 a).2.1.func = byteAt b.content 7) := by
  have hA : maxAduLen = 260 := rfl
  have hlen : b.content.length = b.len := by simp [PduBuf.content]
  have hv' : b.len < 260 ∧ beAt b.buf 4 + 6 = b.len := by
    simpa [isAduValid, aduHdrLen, hA, aduPktLen, aduLenOffset, beAt] using hv
  have w0 : wordAt b.content 0 = beAt b.buf 0 := wordAt_content _ _ (by omega)
  have w2 : wordAt b.content 2 = beAt b.buf 2 := wordAt_content _ _ (by omega)
  have w4 : wordAt b.content 4 = beAt b.buf 4 := wordAt_content _ _ (by omega)
  have bA : ∀ i, i < b.len → byteAt b.content i = (b.buf i).toNat := by
    intro i h; unfold byteAt; rw [buf_eq_content _ _ h]
  by_cases hs : b.len < 12
  · -- too short for any function
    have hF : (parseReq b.buf 0 a).2.2 = false := by
      unfold parseReq
      simp only [Nat.zero_add]
      repeat' split
      all_goals first | rfl | omega | (rename_i h; simp only [ne_eq, Decidable.not_not] at h; omega)
    rw [hF]
    refine ⟨⟨by simp, ?_⟩, by simp⟩
    rintro ⟨_, _, _, _, h⟩
    rw [hlen] at h
    omega
  have b6 := bA 6 (by omega)
  have b7 := bA 7 (by omega)
  have w8 : wordAt b.content 8 = beAt b.buf 8 := wordAt_content _ _ (by omega)
  have w10 : wordAt b.content 10 = beAt b.buf 10 := wordAt_content _ _ (by omega)
  by_cases c1 : beAt b.buf 2 ≠ 0
  · have hF : (parseReq b.buf 0 a).2.2 = false := by
      unfold parseReq; simp only [Nat.zero_add]; rw [if_pos c1]
    rw [hF]
    refine ⟨⟨by simp, ?_⟩, by simp⟩
    rintro ⟨_, _, h, _⟩
    omega
  by_cases c2 : ¬ (b.buf 6).toNat ≤ maxAddr
  · have hF : (parseReq b.buf 0 a).2.2 = false := by
      unfold parseReq; simp only [Nat.zero_add]; rw [if_neg c1, if_pos c2]
    rw [hF]
    refine ⟨⟨by simp, ?_⟩, by simp⟩
    rintro ⟨_, _, _, h, _⟩
    have : maxAddr = 247 := rfl
    omega
  have c2' : (b.buf 6).toNat ≤ 247 := by have : maxAddr = 247 := rfl; omega
  unfold parseReq
  simp only [Nat.zero_add]
  rw [if_neg c1, if_neg c2]
  unfold AcceptableReq
  rw [hlen, w4, w2, b6, b7, w10]
  by_cases c3 : isReadFunc (b.buf 7).toNat
  · rw [if_pos c3]
    have c3' := (readFunc_iff _).1 c3
    by_cases c4 : beAt b.buf 4 ≠ 6
    · rw [if_pos c4]
      refine ⟨⟨by simp, ?_⟩, by simp⟩
      rintro ⟨_, _, _, _, h⟩
      omega
    rw [if_neg c4]
    by_cases c5 : pduLen (b.buf 7).toNat (beAt b.buf 10) > maxPduLen
    · rw [if_pos c5]
      refine ⟨⟨by simp, ?_⟩, by simp⟩
      rintro ⟨_, _, _, _, h⟩
      have := (pduLen_read (n := beAt b.buf 10) c3).2 ⟨by omega, by omega⟩
      omega
    rw [if_neg c5]
    have hp := (pduLen_read (n := beAt b.buf 10) c3).1 (by omega)
    refine ⟨⟨fun _ => ⟨hv'.1, hv'.2, by omega, c2', by omega⟩, fun _ => rfl⟩, fun _ => ⟨?_, w0.symm, rfl, rfl⟩⟩
    have hns : ¬ isSingleFunc (b.buf 7).toNat := by
      rw [singleFunc_iff]; omega
    have hns' := hns
    rw [singleFunc_iff] at hns'
    simp only [AduReq.view, frameReq, if_neg hns, if_pos c3, b7, b6, w0, w8, w10, if_neg hns', if_pos c3']
  rw [if_neg c3]
  have c3' : ¬ ((b.buf 7).toNat = 1 ∨ (b.buf 7).toNat = 2 ∨ (b.buf 7).toNat = 3 ∨ (b.buf 7).toNat = 4) := c3
  by_cases c6 : isSingleFunc (b.buf 7).toNat
  · rw [if_pos c6]
    have c6' := (singleFunc_iff _).1 c6
    by_cases c4 : beAt b.buf 4 ≠ 6
    · rw [if_pos c4]
      refine ⟨⟨by simp, ?_⟩, by simp⟩
      rintro ⟨_, _, _, _, h⟩
      omega
    rw [if_neg c4]
    refine ⟨⟨fun _ => ⟨hv'.1, hv'.2, by omega, c2', by omega⟩, fun _ => rfl⟩, fun _ => ⟨?_, w0.symm, rfl, rfl⟩⟩
    have hd : memRead (memWrite a.data 0 (regBytes b.buf 10 1)) 0 2 = swapPairs (b.content.drop 10) := by
      have hsz : b.len - 10 = 2 * 1 := by omega
      rw [drop_content _ _ (by omega), hsz, ← regBytes_swap]
      have := MsgStorage.memRead_memWrite_same a.data 0 (regBytes b.buf 10 1)
      simpa using this
    simp only [AduReq.view, frameReq, if_pos c6, if_neg c3, b7, b6, w0, w8, if_pos c6', if_neg c3', hd]
  rw [if_neg c6]
  have c6' : ¬ ((b.buf 7).toNat = 5 ∨ (b.buf 7).toNat = 6) := c6
  by_cases c7 : (b.buf 7).toNat = fPresetMulti
  · rw [if_pos c7]
    have c7' : (b.buf 7).toNat = 16 := c7
    by_cases d1 : (b.buf 12).toNat ≠ beAt b.buf 10 * 2
    · rw [if_pos d1]
      refine ⟨⟨by simp, ?_⟩, by simp⟩
      rintro ⟨_, _, _, _, h⟩
      by_cases h13 : 12 < b.len
      · have := bA 12 h13; omega
      · omega
    rw [if_neg d1]
    by_cases d2 : beAt b.buf 4 ≠ 7 + (b.buf 12).toNat
    · rw [if_pos d2]
      refine ⟨⟨by simp, ?_⟩, by simp⟩
      rintro ⟨_, _, _, _, h⟩
      by_cases h13 : 12 < b.len
      · have := bA 12 h13; omega
      · omega
    rw [if_neg d2]
    have b12 := bA 12 (by omega)
    refine ⟨⟨fun _ => ⟨hv'.1, hv'.2, by omega, c2', by omega⟩, fun _ => rfl⟩, fun _ => ⟨?_, w0.symm, rfl, rfl⟩⟩
    have hd : memRead (memWrite a.data 0 (regBytes b.buf 13 ((b.buf 12).toNat / 2))) 0 (b.buf 12).toNat
        = swapPairs (b.content.drop 13) := by
      have hsz : b.len - 13 = 2 * ((b.buf 12).toNat / 2) := by omega
      rw [drop_content _ _ (by omega), hsz, ← regBytes_swap]
      have := MsgStorage.memRead_memWrite_same a.data 0 (regBytes b.buf 13 ((b.buf 12).toNat / 2))
      have hl : (regBytes b.buf 13 ((b.buf 12).toNat / 2)).length = (b.buf 12).toNat := by simp; omega
      rw [hl] at this
      exact this
    simp only [AduReq.view, frameReq, if_neg c6, if_neg c3, b7, b6, w0, w8, w10, if_neg c6', if_neg c3', hd]
  · rw [if_neg c7]
    have c7' : ¬ (b.buf 7).toNat = 16 := c7
    refine ⟨⟨by simp, ?_⟩, by simp⟩
    rintro ⟨_, _, _, _, h⟩
    omega

theorem parseReq_cap (m : Mem) (p : Nat) (a : AduReq) :
    (parseReq m p a).2.1.dataCap = a.dataCap ∧
    (a.numBytes ≤ 255 → (parseReq m p a).2.1.numBytes ≤ 255) := by
  have h := (m (p + 12)).toNat_lt
  unfold parseReq
  dsimp only
  repeat' split
  all_goals refine ⟨rfl, fun h' => ?_⟩
  all_goals first | exact h' | (dsimp only; omega)

theorem beAt_lt (m : Mem) (i : Nat) : beAt m i < 65536 := by
  have := (m i).toNat_lt
  have := (m (i + 1)).toNat_lt
  unfold beAt
  omega

namespace Session

/-! ## Invariant -/

structure Inv (s : Session) : Prop where
  idle : s.st = .init → s.link = false ∧ s.timer = false ∧ s.armed = false
  held : s.st ≠ .init → s.link = true ∧ s.timer = true ∧ s.armed = true
  cap : s.adu.dataCap = 260
  nb : s.adu.numBytes ≤ 255
  len : s.pdu.len ≤ 512
  pos : s.st = .connected → s.pdu.pos = 0

theorem inv_create (m : Mem) (a : AduReq) : Inv (create m a) :=
  ⟨by simp [create], by simp [create], rfl, by simp [create], by simp [create, PduBuf.fresh],
    by simp [create]⟩

/-- The session after it ended. -/
def ended (s : Session) : Session :=
  { st := .init, pdu := s.pdu, adu := s.adu, link := false, timer := false, opened := false, armed := false }

/-- The session ready for a request. -/
def ready (s : Session) : Session :=
  { st := .connected, pdu := s.pdu.reset, adu := s.adu, link := s.link, timer := s.timer, opened := s.opened,
    armed := true }

/-- The session waiting for the application. -/
def waits (s : Session) : Session :=
  { st := .wait, pdu := s.pdu, adu := s.adu, link := s.link, timer := s.timer, opened := s.opened, armed := true }

/-- Transitions out of a running session. -/
theorem transit_init {s : Session} (hs : s.st ≠ .init) (ht : s.timer = true) :
    s.transit .init = .ok (ended s, [.released]) := by
  obtain ⟨st, pdu, adu, link, timer, opened, armed⟩ := s
  cases st <;> simp_all [transit, exit, setTimer, enter, ended]

theorem transit_connected {s : Session} (hs : s.st ≠ .connected) (ht : s.timer = true) :
    s.transit .connected = .ok (ready s, []) := by
  obtain ⟨st, pdu, adu, link, timer, opened, armed⟩ := s
  cases st <;> simp_all [transit, exit, setTimer, enter, ready]

theorem transit_wait {s : Session} (hs : s.st = .connected) (ht : s.timer = true) :
    s.transit .wait = .ok (waits s, []) := by
  obtain ⟨st, pdu, adu, link, timer, opened, armed⟩ := s
  cases st <;> simp_all [transit, exit, setTimer, enter, waits]

/-- The session after decoding its buffer from the start. -/
def decoded (s : Session) : Session :=
  { s with pdu := { s.pdu with pos := (parseReq s.pdu.buf 0 s.adu).1 }, adu := (parseReq s.pdu.buf 0 s.adu).2.1 }

/-- What evaluating the buffer does, with its length and length field. -/
def evalSpec (s : Session) : Session × List SOut × Status :=
  if s.pdu.len < 6 then (s, [], .noerror)
  else if 254 ≤ beAt s.pdu.buf 4 then (s, [], .error)
  else if s.pdu.len < beAt s.pdu.buf 4 then (s, [], .noerror)
  else if s.pdu.len ≠ beAt s.pdu.buf 4 + 6 then (s, [], .done)
  else (s.decoded, if (parseReq s.pdu.buf 0 s.adu).2.2 then [.fwd (fwdOf s.decoded.adu)] else [], .done)

theorem evaluate_eq (s : Session) (hcap : s.adu.dataCap = 260) (hnb : s.adu.numBytes ≤ 255)
    (hpos : s.pdu.len = beAt s.pdu.buf 4 + 6 → s.pdu.pos = 0) : s.evaluate = .ok s.evalSpec := by
  have hA : maxAduLen = 260 := rfl
  have e1 : isAduHdrReceived s.pdu = false ↔ s.pdu.len < 6 := by
    simp [isAduHdrReceived, aduHdrLen]
  have e2 : isAduDataLenValid s.pdu = false ↔ 254 ≤ beAt s.pdu.buf 4 := by
    simp [isAduDataLenValid, aduPktLen, aduHdrLen, aduLenOffset, beAt, hA]
  have e3 : isAduReceived s.pdu = false ↔ s.pdu.len < beAt s.pdu.buf 4 := by
    simp [isAduReceived, aduPktLen, aduLenOffset, beAt]
  have e4 : isAduValid s.pdu = false ↔ ¬ (s.pdu.len < 260 ∧ beAt s.pdu.buf 4 + 6 = s.pdu.len) := by
    simp [isAduValid, aduPktLen, aduHdrLen, aduLenOffset, beAt, hA]
  unfold evaluate evalSpec
  by_cases h1 : s.pdu.len < 6
  · rw [if_pos (e1.2 h1), if_pos h1]
  rw [if_neg (mt e1.1 h1), if_neg h1]
  by_cases h2 : 254 ≤ beAt s.pdu.buf 4
  · rw [if_pos (e2.2 h2), if_pos h2]
  rw [if_neg (mt e2.1 h2), if_neg h2]
  by_cases h3 : s.pdu.len < beAt s.pdu.buf 4
  · rw [if_pos (e3.2 h3), if_pos h3]
  rw [if_neg (mt e3.1 h3), if_neg h3]
  by_cases h4 : s.pdu.len ≠ beAt s.pdu.buf 4 + 6
  · rw [if_pos (e4.2 (by omega)), if_pos h4]
  rw [if_neg (by rw [e4]; simp; omega), if_neg h4]
  have hp := hpos (by omega)
  rw [decodeReq_eq _ _ (by omega) (by omega)]
  simp only [Exec.ok_bind, hp, Nat.zero_add]
  have hc := parseReq_cap s.pdu.buf 0 s.adu
  have hc2 := hc.2 hnb
  cases hr : (parseReq s.pdu.buf 0 s.adu).2.2
  · simp [decoded]
  · simp [decoded]
    omega

/-! ## What a history of a session has to satisfy -/

/-- The part of a forwarded request its function uses. -/
def _root_.Uscada.Modbus.FwdReq.view (r : FwdReq) : ReqView where
  transactId := r.transactId
  addr := r.addr
  func := r.func
  startItem := r.startItem
  numItems := if r.func = 5 ∨ r.func = 6 then none else some r.numItems
  data := if r.func = 1 ∨ r.func = 2 ∨ r.func = 3 ∨ r.func = 4 then none
    else some r.data

/-- A request waiting for its answer: transaction id, slave address, function. -/
abbrev Open := Option (Nat × Nat × Nat)

/-- Effect of an output on the waiting request. -/
def track : Open → SOut → Open
  | _, .fwd r => some (r.transactId, r.addr, r.func)
  | _, .frame _ => none
  | _, .released => none

/-- A frame answers the waiting request: same transaction, same slave address, and the function or the
error code 0x8f. -/
def Matches (q : Open) (w : List UInt8) : Prop :=
  ∃ t a f, q = some (t, a, f) ∧ wordAt w 0 = t ∧ byteAt w 6 = a ∧ (byteAt w 7 = f ∨ byteAt w 7 = 0x8f)

/-- Every frame in a list of outputs answers the last forwarded request that is still unanswered. -/
def Answers (q : Open) : List SOut → Prop
  | [] => True
  | .frame w :: o => Matches q w ∧ Answers none o
  | .fwd r :: o => Answers (some (r.transactId, r.addr, r.func)) o
  | .released :: o => Answers none o

/-- The bytes of the current reception after an event. -/
def rxAcc (s : Session) (e : Ev) (acc : List UInt8) : List UInt8 :=
  match e with
  | .data (.ok bs) => if s.link ∧ s.opened ∧ acc.length ≤ 260 then acc ++ bs.take (512 - acc.length) else acc
  | _ => acc

/-- The reception starts anew whenever the session becomes ready for a request. -/
def nextAcc (s : Session) (e : Ev) (s1 : Session) (acc : List UInt8) : List UInt8 :=
  if s1.st = .connected ∧ s.st ≠ .connected then [] else rxAcc s e acc

/-- The waiting request after an event; a session that left the waiting state gave up on it. -/
def nextOpen (s1 : Session) (o : List SOut) (q : Open) : Open :=
  if s1.st = .wait then o.foldl track q else none

/-- What the environment may do: no end of stream while a request is waiting, answers of at most 260
bytes, and no answer with the stored transaction id while nothing is waiting. -/
def CleanEv (s : Session) (q : Open) : Ev → Prop
  | .data (.ok bs) => s.st = .wait → bs ≠ []
  | .rsp r _ => r.data.length ≤ 260 ∧ (s.st = .wait → q = none → r.transactId ≠ s.adu.transactId)
  | _ => True

/-- Invariant of clean histories. -/
structure J (s : Session) (acc : List UInt8) (q : Open) : Prop where
  inv : Inv s
  acc : s.st ≠ .init → s.pdu.content = acc
  ready : s.st = .connected → s.pdu.len < 6 ∨ s.pdu.len < beAt s.pdu.buf 4 ∧ beAt s.pdu.buf 4 < 254
  waiting : s.st = .wait → 6 ≤ s.pdu.len ∧ beAt s.pdu.buf 4 < 254 ∧ beAt s.pdu.buf 4 ≤ s.pdu.len ∧
    (s.pdu.pos = 0 ∧ s.pdu.len < beAt s.pdu.buf 4 + 6 ∧ q = none ∨ beAt s.pdu.buf 4 + 6 ≤ s.pdu.len)
  idle : s.st ≠ .wait → q = none
  req : ∀ t a f, q = some (t, a, f) → s.adu.transactId = t ∧ s.adu.addr = a ∧ s.adu.func = f ∧
    t < 65536 ∧ a < 256 ∧ f < 256 ∧ beAt s.pdu.buf 4 + 6 ≤ s.pdu.len

theorem j_create (m : Mem) (a : AduReq) : J (create m a) [] none :=
  ⟨inv_create m a, by simp [create], by simp [create], by simp [create], by simp, by simp⟩

theorem length_content (b : PduBuf) : b.content.length = b.len := by simp [PduBuf.content]

theorem view_fwdOf (a : AduReq) : (fwdOf a).view = a.view := rfl

/-- The result of reading `bs`. -/
theorem receive_eq (s : Session) (bs : List UInt8) (hl : s.link = true) (ho : s.opened = true)
    (hlen : s.pdu.len ≤ 260) :
    s.receive (.ok bs) = evaluate { s with pdu := s.pdu.received (bs.take (512 - s.pdu.len)) } := by
  have hA : maxAduLen = 260 := rfl
  unfold receive
  rw [if_neg (by omega), if_neg (by simp [hl]), if_neg (by simp [ho])]
  rfl

theorem buf4_received (b : PduBuf) (bs : List UInt8) (h : 6 ≤ b.len) :
    beAt (b.received bs).buf 4 = beAt b.buf 4 := by
  rw [← wordAt_content (b.received bs) 4 (by simp [PduBuf.received]; omega),
    ← wordAt_content b 4 (by omega), content_received]
  have hl := length_content b
  have hi : ∀ i, i < 6 → (b.content ++ bs).getD i 0 = b.content.getD i 0 := by
    intro i hi
    rw [List.getD_eq_getElem?_getD, List.getD_eq_getElem?_getD, List.getElem?_append_left (by omega)]
  simp only [wordAt, byteAt]
  rw [hi 4 (by omega), hi 5 (by omega)]

/-- Decoding the buffer: what is stored and forwarded. -/
theorem decoded_spec (s : Session) (h6 : 6 ≤ s.pdu.len) (hl : s.pdu.len = beAt s.pdu.buf 4 + 6)
    (h2 : beAt s.pdu.buf 4 < 254) :
    ((parseReq s.pdu.buf 0 s.adu).2.2 = true ↔ AcceptableReq s.pdu.content) ∧
    ((parseReq s.pdu.buf 0 s.adu).2.2 = true →
      (fwdOf s.decoded.adu).view = frameReq s.pdu.content ∧
      s.decoded.adu.transactId < 65536 ∧ s.decoded.adu.addr < 256 ∧ s.decoded.adu.func < 256) := by
  have hA : maxAduLen = 260 := rfl
  have hv : isAduValid s.pdu = true := by
    simp [isAduValid, aduPktLen, aduHdrLen, aduLenOffset, hA]
    unfold beAt at hl h2
    simp only [Nat.reduceAdd] at hl h2
    omega
  obtain ⟨h3, h4⟩ := parseReq_content s.pdu s.adu h6 hv
  refine ⟨h3, fun h => ?_⟩
  obtain ⟨h5, h7, h8, h9⟩ := h4 h
  have hb : ∀ i, byteAt s.pdu.content i < 256 := fun i => UInt8.toNat_lt _
  refine ⟨by rw [view_fwdOf]; exact h5, ?_, ?_, ?_⟩
  · show (parseReq s.pdu.buf 0 s.adu).2.1.transactId < 65536
    rw [h7]
    have := hb 0; have := hb (0 + 1)
    unfold wordAt
    omega
  · show (parseReq s.pdu.buf 0 s.adu).2.1.addr < 256
    rw [h8]; exact hb _
  · show (parseReq s.pdu.buf 0 s.adu).2.1.func < 256
    rw [h9]; exact hb _

/-- Invariant of everything but the state. -/
theorem inv_decoded {s : Session} (h1 : s.adu.dataCap = 260) (h2 : s.adu.numBytes ≤ 255) :
    s.decoded.adu.dataCap = 260 ∧ s.decoded.adu.numBytes ≤ 255 := by
  have := parseReq_cap s.pdu.buf 0 s.adu
  exact ⟨this.1.trans h1, this.2 h2⟩

/-- The answer sent by `send`. -/
theorem send_spec (s : Session) (r : AppRsp) (ok : Bool) (hd : r.data.length ≤ 260) (hl : s.link = true) :
    ∃ o res, s.send r ok = .ok (o, res) ∧ (res = .done ∨ res = .error) ∧
      (o = [] ∨ ∃ w, o = [.frame w] ∧ res = .done ∧ r.transactId = s.adu.transactId ∧ r.success = true ∧
        ok = true ∧ w = rspFrame (rspOf s r)) := by
  have hA : maxAduLen = 260 := rfl
  rw [send_body]
  split
  · exact ⟨_, _, rfl, .inl rfl, .inl rfl⟩
  rename_i ht
  split
  · exact ⟨_, _, rfl, .inl rfl, .inl rfl⟩
  rename_i hs
  rw [if_neg (by omega)]
  obtain ⟨b, k, h1, h2, h3, h4⟩ := encodeRsp_eq (fun _ => 0) (rspOf s r) (by simpa [rspOf] using hd)
  rw [h1]
  simp only [Exec.ok_bind]
  cases k
  · exact ⟨_, _, rfl, .inl rfl, .inl rfl⟩
  simp only [Bool.true_eq_false, if_false]
  split
  · exact ⟨_, _, rfl, .inl rfl, .inl rfl⟩
  rw [if_neg (by simp [hl])]
  split
  · rename_i hk
    refine ⟨_, _, rfl, .inl rfl, .inr ⟨_, rfl, rfl, by simpa using ht, by simpa using hs, hk.2, ?_⟩⟩
    exact (h4 rfl).1.content
  · exact ⟨_, _, rfl, .inr rfl, .inl rfl⟩

/-- Header of an answer. -/
theorem rspFrame_hdr (a : AduRsp) (h1 : a.transactId < 65536) (h2 : a.addr < 256) (h3 : a.func < 256) :
    wordAt (rspFrame a) 0 = a.transactId ∧ byteAt (rspFrame a) 6 = a.addr ∧ byteAt (rspFrame a) 7 = a.func := by
  have key : ∀ (l : Nat) (tail : List UInt8), wordAt (hdr a.transactId l a.addr a.func ++ tail) 0 = a.transactId ∧
      byteAt (hdr a.transactId l a.addr a.func ++ tail) 6 = a.addr ∧
      byteAt (hdr a.transactId l a.addr a.func ++ tail) 7 = a.func := by
    intro l tail
    simp [wordAt, byteAt, hdr, be16]
    omega
  unfold rspFrame
  simp only [List.append_assoc]
  repeat' split
  all_goals exact key _ _

/-- Evaluating a buffer that holds the bytes read so far. -/
theorem evalSpec_J {s : Session} {acc : List UInt8} {q : Open} (h : J s acc q) (hs : s.st ≠ .init)
    (bs : List UInt8) (hlen : s.pdu.len ≤ 260) (hc : s.st = .wait → bs ≠ []) :
    ∃ s1 o r, evaluate { s with pdu := s.pdu.received (bs.take (512 - s.pdu.len)) } = .ok (s1, o, r) ∧
      r ≠ .codecError ∧
      s1.st = s.st ∧ s1.link = s.link ∧ s1.timer = s.timer ∧ s1.armed = s.armed ∧
      s1.adu.dataCap = 260 ∧ s1.adu.numBytes ≤ 255 ∧ s1.pdu.len ≤ 512 ∧
      s1.pdu.content = acc ++ bs.take (512 - acc.length) ∧
      (r ≠ .done → o = [] ∧ s1.pdu.pos = s.pdu.pos) ∧
      (r = .noerror → s1.pdu.len < 6 ∨ s1.pdu.len < beAt s1.pdu.buf 4 ∧ beAt s1.pdu.buf 4 < 254) ∧
      (r = .done → 6 ≤ s1.pdu.len ∧ beAt s1.pdu.buf 4 < 254 ∧ beAt s1.pdu.buf 4 ≤ s1.pdu.len ∧
        (s1.pdu.pos = 0 ∧ s1.pdu.len < beAt s1.pdu.buf 4 + 6 ∧ o = [] ∧ q = none ∨
          beAt s1.pdu.buf 4 + 6 ≤ s1.pdu.len)) ∧
      (s.st = .wait → r = .done) ∧
      (o = [] ∧ (s1.adu = s.adu ∨ q = none) ∨
        o = [.fwd (fwdOf s1.adu)] ∧ AcceptableReq (acc ++ bs.take (512 - acc.length)) ∧
        (fwdOf s1.adu).view = frameReq (acc ++ bs.take (512 - acc.length)) ∧
        s1.adu.transactId < 65536 ∧ s1.adu.addr < 256 ∧ s1.adu.func < 256 ∧
        beAt s1.pdu.buf 4 + 6 ≤ s1.pdu.len) := by
  have hacc := h.acc hs
  have hal : acc.length = s.pdu.len := by rw [← hacc, length_content]
  rw [hal]
  generalize hb : bs.take (512 - s.pdu.len) = cs
  have hcl : cs.length ≤ 512 - s.pdu.len := by rw [← hb]; simp; omega
  have hcw : s.st = .wait → cs ≠ [] := by
    intro hw hn
    rw [← hb, List.take_eq_nil_iff] at hn
    rcases hn with hn | hn
    · omega
    · exact hc hw hn
  have hcw' : s.st = .wait → 0 < cs.length := fun hw => List.length_pos_iff.2 (hcw hw)
  have hcont : (s.pdu.received cs).content = acc ++ cs := by rw [content_received, hacc]
  have hst : s.st = .connected ∨ s.st = .wait := by
    cases hq : s.st <;> simp_all
  have hrl : (s.pdu.received cs).len = s.pdu.len + cs.length := rfl
  have hrp : (s.pdu.received cs).pos = s.pdu.pos := rfl
  have hw4 : s.st = .wait → beAt (s.pdu.received cs).buf 4 = beAt s.pdu.buf 4 := fun hw =>
    buf4_received _ _ (h.waiting hw).1
  have hpos : (s.pdu.received cs).len = beAt (s.pdu.received cs).buf 4 + 6 → s.pdu.pos = 0 ∧ q = none := by
    intro he
    rcases hst with hq | hq
    · exact ⟨h.inv.pos hq, h.idle (by rw [hq]; simp)⟩
    · have hk := (h.waiting hq).2.2.2
      have := hcw' hq
      rw [hw4 hq] at he
      rcases hk with hk | hk
      · exact ⟨hk.1, hk.2.2⟩
      · omega
  rw [evaluate_eq { s with pdu := s.pdu.received cs } h.inv.cap h.inv.nb (fun he => (hpos he).1)]
  unfold evalSpec
  dsimp only
  by_cases h1 : (s.pdu.received cs).len < 6
  · rw [if_pos h1]
    have hq : s.st = .connected := by
      rcases hst with hq | hq
      · exact hq
      · have := h.waiting hq; omega
    exact ⟨_, _, _, rfl, by simp, rfl, rfl, rfl, rfl, h.inv.cap, h.inv.nb, by dsimp only; omega, hcont,
      fun _ => ⟨rfl, rfl⟩, fun _ => .inl h1, by simp, by simp [hq], .inl ⟨rfl, .inl rfl⟩⟩
  rw [if_neg h1]
  by_cases h2 : 254 ≤ beAt (s.pdu.received cs).buf 4
  · rw [if_pos h2]
    have hq : s.st = .connected := by
      rcases hst with hq | hq
      · exact hq
      · have := h.waiting hq; have := hw4 hq; omega
    exact ⟨_, _, _, rfl, by simp, rfl, rfl, rfl, rfl, h.inv.cap, h.inv.nb, by dsimp only; omega, hcont,
      fun _ => ⟨rfl, rfl⟩, by simp, by simp, by simp [hq], .inl ⟨rfl, .inl rfl⟩⟩
  rw [if_neg h2]
  by_cases h3 : (s.pdu.received cs).len < beAt (s.pdu.received cs).buf 4
  · rw [if_pos h3]
    by_cases hq : s.st = .connected
    · exact ⟨_, _, _, rfl, by simp, rfl, rfl, rfl, rfl, h.inv.cap, h.inv.nb, by dsimp only; omega, hcont,
        fun _ => ⟨rfl, rfl⟩, fun _ => .inr ⟨h3, by dsimp only; omega⟩, by simp, by simp [hq], .inl ⟨rfl, .inl rfl⟩⟩
    · exfalso
      have hq' : s.st = .wait := by rcases hst with h' | h'; exact absurd h' hq; exact h'
      have := h.waiting hq'
      have := hw4 hq'
      omega
  rw [if_neg h3]
  by_cases h4 : (s.pdu.received cs).len ≠ beAt (s.pdu.received cs).buf 4 + 6
  · rw [if_pos h4]
    refine ⟨_, _, _, rfl, by simp, rfl, rfl, rfl, rfl, h.inv.cap, h.inv.nb, by dsimp only; omega, hcont,
        by simp, by simp, fun _ => ⟨by dsimp only; omega, by dsimp only; omega, by dsimp only; omega, ?_⟩, by simp, .inl ⟨rfl, .inl rfl⟩⟩
    dsimp only
    by_cases h5 : beAt (s.pdu.received cs).buf 4 + 6 ≤ (s.pdu.received cs).len
    · exact .inr h5
    · refine .inl ?_
      rcases hst with hq | hq
      · exact ⟨h.inv.pos hq, by omega, rfl, h.idle (by rw [hq]; simp)⟩
      · have := h.waiting hq
        have := hw4 hq
        refine ⟨?_, by omega, rfl, ?_⟩
        · rw [hrp]; omega
        · rcases this with h6
          have h7 := (h.waiting hq).2.2.2
          rcases h7 with h7 | h7
          · exact h7.2.2
          · omega
  rw [if_neg h4]
  obtain ⟨d1, d2⟩ := decoded_spec { s with pdu := s.pdu.received cs } (by dsimp only; omega)
    (by dsimp only; omega) (by dsimp only; omega)
  have hi := inv_decoded (s := { s with pdu := s.pdu.received cs }) h.inv.cap h.inv.nb
  have hq := (hpos (by omega)).2
  refine ⟨_, _, _, rfl, by simp, rfl, rfl, rfl, rfl, hi.1, hi.2, ?_, hcont,
    by simp, by simp, fun _ => ⟨?_, ?_, ?_, .inr ?_⟩, by simp, ?_⟩
  · show (s.pdu.received cs).len ≤ 512; omega
  · show 6 ≤ (s.pdu.received cs).len; omega
  · show beAt (s.pdu.received cs).buf 4 < 254; omega
  · show beAt (s.pdu.received cs).buf 4 ≤ (s.pdu.received cs).len; omega
  · show beAt (s.pdu.received cs).buf 4 + 6 ≤ (s.pdu.received cs).len; omega
  · dsimp only at d1 d2 ⊢
    by_cases hk : (parseReq (s.pdu.received cs).buf 0 s.adu).2.2 = true
    · obtain ⟨d3, d4, d5, d6⟩ := d2 hk
      rw [if_pos hk]
      refine .inr ⟨rfl, ?_, ?_, d4, d5, d6, ?_⟩
      · rw [← hcont]; exact d1.1 hk
      · rw [← hcont]; exact d3
      · show beAt (s.pdu.received cs).buf 4 + 6 ≤ (s.pdu.received cs).len; omega
    · rw [if_neg hk]
      exact .inl ⟨rfl, .inr hq⟩

theorem j_keep {s s1 : Session} {acc : List UInt8} {q : Open} (e : Ev) (h : J s acc q) (h1 : s1.st = s.st)
    (h2 : s1.pdu = s.pdu) (h3 : s1.adu = s.adu)
    (h4 : s.st = .init → s1.link = false ∧ s1.timer = false ∧ s1.armed = false)
    (h5 : s.st ≠ .init → s1.link = true ∧ s1.timer = true ∧ s1.armed = true) (h6 : rxAcc s e acc = acc ∨ s.st = .init) :
    J s1 (nextAcc s e s1 acc) (nextOpen s1 [] q) := by
  have e1 : s.st ≠ .init → nextAcc s e s1 acc = acc := by
    intro hn
    unfold nextAcc
    rw [if_neg (by rw [h1]; intro hh; exact hh.2 hh.1)]
    rcases h6 with h6 | h6
    · exact h6
    · exact absurd h6 hn
  have e2 : nextOpen s1 [] q = q := by
    unfold nextOpen
    split
    · rfl
    · rename_i hn
      rw [h1] at hn
      exact (h.idle hn).symm
  rw [e2]
  refine ⟨⟨?_, ?_, ?_, ?_, ?_, ?_⟩, ?_, ?_, ?_, ?_, ?_⟩
  · rw [h1]; exact h4
  · rw [h1]; exact h5
  · rw [h3]; exact h.inv.cap
  · rw [h3]; exact h.inv.nb
  · rw [h2]; exact h.inv.len
  · rw [h1, h2]; exact h.inv.pos
  · rw [h1, h2]; intro hn; rw [e1 hn]; exact h.acc hn
  · rw [h1, h2]; exact h.ready
  · rw [h1, h2]; exact h.waiting
  · rw [h1]; exact h.idle
  · rw [h2, h3]; exact h.req

theorem j_ended {s : Session} (acc : List UInt8) (h1 : s.adu.dataCap = 260) (h2 : s.adu.numBytes ≤ 255)
    (h3 : s.pdu.len ≤ 512) (o : List SOut) (q : Open) : J (ended s) acc (nextOpen (ended s) o q) := by
  have e : nextOpen (ended s) o q = none := by simp [nextOpen, ended]
  rw [e]
  exact ⟨⟨by simp [ended], by simp [ended], h1, h2, h3, by simp [ended]⟩, by simp [ended], by simp [ended],
    by simp [ended], by simp, by simp⟩

theorem j_ready {s s0 : Session} (acc : List UInt8) (e : Ev) (h0 : s0.st ≠ .connected)
    (h1 : s.adu.dataCap = 260) (h2 : s.adu.numBytes ≤ 255)
    (hl : s.link = true) (ht : s.timer = true) (o : List SOut) (q : Open) :
    J (ready s) (nextAcc s0 e (ready s) acc) (nextOpen (ready s) o q) := by
  have e1 : nextOpen (ready s) o q = none := by simp [nextOpen, ready]
  have e2 : nextAcc s0 e (ready s) acc = [] := by simp [nextAcc, ready, h0]
  rw [e1, e2]
  exact ⟨⟨by simp [ready], by simp [ready, hl, ht], h1, h2, by simp [ready, PduBuf.reset], by simp [ready, PduBuf.reset]⟩,
    by simp [ready, PduBuf.content, PduBuf.reset, memRead],
    by simp [ready, PduBuf.reset], by simp [ready], by simp, by simp⟩

theorem rxAcc_data {s : Session} {acc bs : List UInt8} (hl : s.link = true) (ho : s.opened = true)
    (h : acc.length ≤ 260) : rxAcc s (.data (.ok bs)) acc = acc ++ bs.take (512 - acc.length) := by
  simp [rxAcc, hl, ho, h]

/-- One event of a clean history. -/
theorem step_J {s : Session} {acc : List UInt8} {q : Open} {e : Ev} (h : J s acc q) (hc : CleanEv s q e) :
    ∃ s1 o, s.step e = .ok (s1, o) ∧ J s1 (nextAcc s e s1 acc) (nextOpen s1 o q) ∧
      Answers q o ∧
      (∀ r, .fwd r ∈ o → AcceptableReq (rxAcc s e acc) ∧ r.view = frameReq (rxAcc s e acc)) ∧
      (o = [] ∨ o = [.released] ∨ (∃ r, o = [.fwd r] ∧ s1.st = .wait) ∨ (∃ w, o = [.frame w] ∧ s1.st ≠ .wait)) := by
  have hA : maxAduLen = 260 := rfl
  have hst : s.st = .init ∨ s.st = .connected ∨ s.st = .wait := by cases s.st <;> simp
  cases e with
  | start =>
    rcases hst with hs | hs | hs
    · have : s.step .start = .ok (ready { s with link := true, timer := true, opened := true }, []) := by
        simp only [step, onStart, hs]
        rw [← transit_connected (by simp) rfl]
      rw [this]
      exact ⟨_, _, rfl, j_ready (s := { s with link := true, timer := true, opened := true }) _ _
        (by rw [hs]; simp) h.inv.cap h.inv.nb rfl rfl _ _, trivial, by simp, .inl rfl⟩
    all_goals
      have hh := h.inv.held (by rw [hs]; simp)
      have : s.step .start = .ok ({ s with link := true, timer := true, opened := true }, []) := by
        simp only [step, onStart, hs]
      rw [this]
      exact ⟨_, _, rfl, j_keep _ h rfl rfl rfl (by simp [hs]) (by simp [hh]) (.inl rfl), trivial, by simp, .inl rfl⟩
  | data rx =>
    rcases hst with hs | hs
    · have : s.step (.data rx) = .ok (s, []) := by
        simp [step, (h.inv.idle hs).1]
      rw [this]
      exact ⟨_, _, rfl, j_keep _ h rfl rfl rfl (h.inv.idle) (h.inv.held) (.inr hs), trivial, by simp, .inl rfl⟩
    have hni : s.st ≠ .init := by rcases hs with hs | hs <;> rw [hs] <;> simp
    have hh := h.inv.held hni
    have hal : acc.length = s.pdu.len := by rw [← h.acc hni, length_content]
    have hstep : s.step (.data rx) = s.onData rx := by simp [step, hh.1]
    rw [hstep]
    -- the session ends
    have hend : s.receive rx = .ok (s, [], .error) →
        ∃ s1 o, s.onData rx = .ok (s1, o) ∧ J s1 (nextAcc s (.data rx) s1 acc) (nextOpen s1 o q) ∧
      Answers q o ∧
      (∀ r, .fwd r ∈ o → AcceptableReq (rxAcc s (.data rx) acc) ∧ r.view = frameReq (rxAcc s (.data rx) acc)) ∧
      (o = [] ∨ o = [.released] ∨ (∃ r, o = [.fwd r] ∧ s1.st = .wait) ∨ (∃ w, o = [.frame w] ∧ s1.st ≠ .wait)) := by
      intro hr
      have : s.onData rx = .ok (ended s, [.released]) := by
        rcases hs with hs | hs <;> simp [onData, hs, hr, transit_init hni hh.2.1]
      rw [this]
      exact ⟨_, _, rfl, j_ended _ h.inv.cap h.inv.nb h.inv.len _ _, by simp [Answers], by simp, by simp⟩
    -- nothing happens
    have hnil : rxAcc s (.data rx) acc = acc →
        (s.receive rx = .ok (s, [], .noerror) ∨ s.st = .wait ∧ s.receive rx = .ok (s, [], .done)) →
        ∃ s1 o, s.onData rx = .ok (s1, o) ∧ J s1 (nextAcc s (.data rx) s1 acc) (nextOpen s1 o q) ∧
      Answers q o ∧
      (∀ r, .fwd r ∈ o → AcceptableReq (rxAcc s (.data rx) acc) ∧ r.view = frameReq (rxAcc s (.data rx) acc)) ∧
      (o = [] ∨ o = [.released] ∨ (∃ r, o = [.fwd r] ∧ s1.st = .wait) ∨ (∃ w, o = [.frame w] ∧ s1.st ≠ .wait)) := by
      intro ha hr
      have : s.onData rx = .ok (s, []) := by
        rcases hr with hr | ⟨hs', hr⟩
        · rcases hs with hs | hs <;> simp [onData, hs, hr]
        · simp [onData, hs', hr]
      rw [this]
      exact ⟨_, _, rfl, j_keep _ h rfl rfl rfl (h.inv.idle) (h.inv.held) (.inl ha), trivial, by simp, .inl rfl⟩
    by_cases hlen : s.pdu.len > 260
    · have hw : s.st = .wait := by
        rcases hs with hs | hs
        · have := h.ready hs; omega
        · exact hs
      refine hnil ?_ (.inr ⟨hw, ?_⟩)
      · cases rx <;> simp [rxAcc]; omega
      · unfold receive; rw [if_pos (by omega)]
    by_cases ho : s.opened = true
    · cases rx with
      | na => exact hnil rfl (.inl (by unfold receive; rw [if_neg (by omega), if_neg (by simp [hh.1]), if_neg (by simp [ho])]))
      | error => exact hend (by unfold receive; rw [if_neg (by omega), if_neg (by simp [hh.1]), if_neg (by simp [ho])])
      | ok bs =>
        have hrx : rxAcc s (.data (.ok bs)) acc = acc ++ bs.take (512 - acc.length) :=
          rxAcc_data hh.1 ho (by omega)
        obtain ⟨s1, o, r, e0, e1, e2, e3, e4, e5, e6, e7, e8, e9, e10, e11, e12, e13, e14⟩ :=
          evalSpec_J h hni bs (by omega) hc
        have hrec : s.receive (.ok bs) = .ok (s1, o, r) := by rw [receive_eq s bs hh.1 ho (by omega), e0]
        rw [hrx]
        cases r with
        | codecError => exact absurd rfl e1
        | error =>
          have hoe := (e10 (by simp)).1
          have : s.onData (.ok bs) = .ok (ended s1, [.released]) := by
            rcases hs with hs | hs <;>
              simp [onData, hs, hrec, transit_init (s := s1) (by rw [e2, hs]; simp) (by rw [e4, hh.2.1]), hoe]
          rw [this]
          exact ⟨_, _, rfl, j_ended _ e6 e7 e8 _ _, by simp [Answers], by simp, by simp⟩
        | noerror =>
          have hoe := (e10 (by simp)).1
          have hs' : s.st = .connected := by
            rcases hs with hs | hs
            · exact hs
            · exact absurd (e13 hs) (by simp)
          have : s.onData (.ok bs) = .ok (s1, []) := by
            simp [onData, hs', hrec, hoe]
          rw [this]
          refine ⟨_, _, rfl, ⟨⟨?_, ?_, e6, e7, e8, ?_⟩, ?_, ?_, ?_, ?_, ?_⟩, trivial, by simp, .inl rfl⟩
          · rw [e2, hs']; simp
          · rw [e3, e4, e5]; exact fun _ => hh
          · rw [(e10 (by simp)).2]; exact fun _ => h.inv.pos hs'
          · rw [e9]; intro _
            unfold nextAcc
            rw [if_neg (by rw [hs']; simp), hrx]
          · exact fun _ => e11 rfl
          · rw [e2, hs']; simp
          · intro _; unfold nextOpen; rw [if_neg (by rw [e2, hs']; simp)]
          · intro t a f hq; unfold nextOpen at hq; rw [if_neg (by rw [e2, hs']; simp)] at hq; simp at hq
        | done =>
          have hd := e12 rfl
          -- both states end up waiting with the new buffer
          have key : ∃ s2, s.onData (.ok bs) = .ok (s2, o) ∧ s2.st = .wait ∧ s2.pdu = s1.pdu ∧ s2.adu = s1.adu ∧
              s2.link = true ∧ s2.timer = true ∧ s2.armed = true := by
            rcases hs with hs | hs
            · refine ⟨waits s1, ?_, rfl, rfl, rfl, by simp [waits, e3, hh], by simp [waits, e4, hh], rfl⟩
              simp [onData, hs, hrec, transit_wait (s := s1) (by rw [e2, hs]) (by rw [e4, hh.2.1])]
            · refine ⟨s1, ?_, by rw [e2, hs], rfl, rfl, by rw [e3, hh.1], by rw [e4, hh.2.1], by rw [e5, hh.2.2]⟩
              simp [onData, hs, hrec]
          obtain ⟨s2, k1, k2, k3, k4, k5, k6, k7⟩ := key
          rw [k1]
          have hno : nextOpen s2 o q = o.foldl track q := by unfold nextOpen; rw [if_pos k2]
          refine ⟨_, _, rfl, ⟨⟨?_, ?_, by rw [k4]; exact e6, by rw [k4]; exact e7, by rw [k3]; exact e8, ?_⟩, ?_, ?_, ?_, ?_, ?_⟩, ?_, ?_, ?_⟩
          · rw [k2]; simp
          · exact fun _ => ⟨k5, k6, k7⟩
          · rw [k2]; simp
          · intro _
            unfold nextAcc
            rw [if_neg (by rw [k2]; simp), hrx, k3, e9]
          · rw [k2]; simp
          · intro _
            rw [k3]
            refine ⟨hd.1, hd.2.1, hd.2.2.1, ?_⟩
            rcases hd.2.2.2 with hd | hd
            · refine .inl ⟨hd.1, hd.2.1, ?_⟩
              rw [hno, hd.2.2.1]; exact hd.2.2.2
            · exact .inr hd
          · rw [k2]; simp
          · intro t a f hq
            rw [hno] at hq
            rw [k3, k4]
            rcases e14 with ⟨f1, f2⟩ | ⟨f1, f2, f3, f4, f5, f6, f7⟩
            · rw [f1] at hq
              simp only [List.foldl_nil] at hq
              rcases f2 with f2 | f2
              · have hr := h.req t a f hq
                rw [f2]
                refine ⟨hr.1, hr.2.1, hr.2.2.1, hr.2.2.2.1, hr.2.2.2.2.1, hr.2.2.2.2.2.1, ?_⟩
                rcases hd.2.2.2 with hd | hd
                · rw [hd.2.2.2] at hq; simp at hq
                · exact hd
              · rw [f2] at hq; simp at hq
            · rw [f1] at hq
              simp only [List.foldl_cons, List.foldl_nil, track, fwdOf, Option.some.injEq, Prod.mk.injEq] at hq
              obtain ⟨rfl, rfl, rfl⟩ := hq
              exact ⟨rfl, rfl, rfl, f4, f5, f6, f7⟩
          · rcases e14 with ⟨f1, f2⟩ | ⟨f1, f2, f3, f4, f5, f6, f7⟩ <;> rw [f1] <;> simp [Answers]
          · rcases e14 with ⟨f1, f2⟩ | ⟨f1, f2, f3, f4, f5, f6, f7⟩
            · rw [f1]; simp
            · rw [f1]
              intro r hr
              simp only [List.mem_singleton, SOut.fwd.injEq] at hr
              rw [hr]
              exact ⟨f2, f3⟩
          · rcases e14 with ⟨f1, f2⟩ | ⟨f1, f2, f3, f4, f5, f6, f7⟩
            · exact .inl f1
            · exact .inr (.inr (.inl ⟨_, f1, k2⟩))
    · refine hend ?_
      unfold receive
      rw [if_neg (by omega), if_neg (by simp [hh.1]), if_pos (by simpa using ho)]
  | linkError =>
    refine ⟨_, _, rfl, j_keep _ h rfl rfl rfl (h.inv.idle) (h.inv.held) (.inl rfl), trivial, by simp, .inl rfl⟩
  | rsp r ok =>
    have hcl := hc
    simp only [CleanEv] at hcl
    rcases hst with hs | hs | hs
    · have : s.step (.rsp r ok) = .ok (s, []) := by simp [step, onRsp, hs]
      rw [this]
      exact ⟨_, _, rfl, j_keep _ h rfl rfl rfl (h.inv.idle) (h.inv.held) (.inl rfl), trivial, by simp, .inl rfl⟩
    · have : s.step (.rsp r ok) = .ok (s, []) := by simp [step, onRsp, hs]
      rw [this]
      exact ⟨_, _, rfl, j_keep _ h rfl rfl rfl (h.inv.idle) (h.inv.held) (.inl rfl), trivial, by simp, .inl rfl⟩
    have hh := h.inv.held (by rw [hs]; simp)
    obtain ⟨o, res, f0, f1, f2⟩ := send_spec s r ok hcl.1 hh.1
    rcases f1 with f1 | f1 <;> subst f1
    · have : s.step (.rsp r ok) = .ok (ready s, o) := by
        simp [step, onRsp, hs, f0, transit_connected (s := s) (by rw [hs]; simp) hh.2.1]
      rw [this]
      refine ⟨_, _, rfl, j_ready _ _ (by rw [hs]; simp) h.inv.cap h.inv.nb hh.1 hh.2.1 _ _, ?_, ?_, ?_⟩
      · rcases f2 with f2 | ⟨w, g1, g2, g3, g4, g5, g6⟩
        · rw [f2]; trivial
        · rw [g1]
          refine ⟨?_, trivial⟩
          cases hq : q with
          | none => exact absurd g3 (hcl.2 hs hq)
          | some x =>
            obtain ⟨t, a, f⟩ := x
            obtain ⟨q1, q2, q3, q4, q5, q6, _⟩ := h.req t a f hq
            have hf := rspFrame_hdr (rspOf s r) (by show r.transactId < 65536; omega)
              (by show s.adu.addr < 256; omega) (by show (if r.error ≠ 0 then fError else s.adu.func) < 256; split; decide; omega)
            refine ⟨t, a, f, rfl, ?_, ?_, ?_⟩
            · rw [g6, hf.1]; show r.transactId = t; omega
            · rw [g6, hf.2.1]; exact q2
            · rw [g6, hf.2.2]
              show (if r.error ≠ 0 then fError else s.adu.func) = f ∨ (if r.error ≠ 0 then fError else s.adu.func) = 0x8f
              split
              · exact .inr rfl
              · exact .inl q3
      · rcases f2 with f2 | ⟨w, g1, g2, g3, g4, g5, g6⟩
        · rw [f2]; simp
        · rw [g1]; simp
      · rcases f2 with f2 | ⟨w, g1, g2, g3, g4, g5, g6⟩
        · exact .inl f2
        · exact .inr (.inr (.inr ⟨w, g1, by simp [ready]⟩))
    · have ho : o = [] := by
        rcases f2 with f2 | ⟨w, g1, g2, g3, g4, g5, g6⟩
        · exact f2
        · simp at g2
      have : s.step (.rsp r ok) = .ok (ended s, [.released]) := by
        simp [step, onRsp, hs, f0, transit_init (s := s) (by rw [hs]; simp) hh.2.1, ho]
      rw [this]
      exact ⟨_, _, rfl, j_ended _ h.inv.cap h.inv.nb h.inv.len _ _, by simp [Answers], by simp, by simp⟩
  | timer =>
    rcases hst with hs | hs | hs
    · have : s.step .timer = .ok (s, []) := by simp [step, (h.inv.idle hs).2.2]
      rw [this]
      exact ⟨_, _, rfl, j_keep _ h rfl rfl rfl (h.inv.idle) (h.inv.held) (.inl rfl), trivial, by simp, .inl rfl⟩
    · have hh := h.inv.held (by rw [hs]; simp)
      have : s.step .timer = .ok (ended { s with armed := false }, [.released]) := by
        simp only [step, hh.2.2, if_true, onTimer, hs]
        exact transit_init (s := { s with st := .connected, armed := false }) (by simp) hh.2.1
      rw [this]
      exact ⟨_, _, rfl, j_ended (s := { s with armed := false }) _ h.inv.cap h.inv.nb h.inv.len _ _, by simp [Answers], by simp, by simp⟩
    · have hh := h.inv.held (by rw [hs]; simp)
      have : s.step .timer = .ok (ready { s with armed := false }, []) := by
        simp only [step, hh.2.2, if_true, onTimer, hs]
        exact transit_connected (s := { s with st := .wait, armed := false }) (by simp) hh.2.1
      rw [this]
      exact ⟨_, _, rfl, j_ready (s := { s with armed := false }) _ _ (by rw [hs]; simp) h.inv.cap h.inv.nb hh.1 hh.2.1 _ _, trivial, by simp, .inl rfl⟩

end Session

end Uscada.Modbus
