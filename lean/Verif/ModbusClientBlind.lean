import Verif.ModbusBlind
import Verif.ModbusClientProps
/-!
# C92: what uninitialised memory has to do with the answers a Modbus client reports

The receive buffer of a client is uninitialised when the client is created, and decoding does not look at the number of received bytes.  Two clients that differ
in nothing but this memory are run with the same events.
-/

namespace Uscada.Modbus.Client

open AduStorage (Pending)
open Uscada.Modbus.Blind (beAt_same regBytes_same)

/-- A frame that is too short to be an answer and looks like one as far as it goes: its length field is right, and what there is of protocol, transaction,
address and error function is what the request asks for. -/
def Stub (w : List UInt8) (p : Pending) : Prop :=
  w.length < 9 ∧ wordAt w 4 + 6 = w.length ∧ wordAt w 2 = 0 ∧ wordAt w 0 = p.transactId ∧ (7 ≤ w.length → byteAt w 6 = p.addr) ∧
    (8 ≤ w.length → byteAt w 7 = 0x8f)

/-- The two ways to make the client look at memory are not used by this event: the stream does not end behind a decoded answer while another request waits, and
the received bytes are no stub. -/
def Clear (c : Client) : Ev → Prop
  | .data (.ok bs) => ∀ p ps, c.pending = p :: ps → (bs = [] → c.pdu.pos = 0) ∧ (c.pdu.pos = 0 → ¬ Stub (c.pdu.content ++ bs.take c.pdu.capacity) p)
  | _ => True

/-- Every event of a history is clear. -/
def AllClear (c : Client) : List Ev → Prop
  | [] => True
  | e :: es => Clear c e ∧ ∀ c1 o, c.step e = .ok (c1, o) → AllClear c1 es

/-- Buffers of two clients: what has been received is the same. -/
structure Peers (b b' : PduBuf) : Prop where
  len : b'.len = b.len
  pos : b'.pos = 0 ↔ b.pos = 0
  mem : ∀ i, i < b.len → b.buf i = b'.buf i
  over : b.pos ≠ 0 → 6 ≤ b.len ∧ beAt b.buf 4 + 6 ≤ b.len

/-- Clients that differ in memory only. -/
def Pair (c c' : Client) : Prop := ∃ b', c' = { c with pdu := b' } ∧ Peers c.pdu b'

/-- Runs that end alike. -/
inductive Like {α : Type} : Exec (Client × α) → Exec (Client × α) → Prop where
  | ok {c c' : Client} {a : α} (h : Pair c c') : Like (.ok (c, a)) (.ok (c', a))
  | throws : Like .throws .throws
  | abort : Like .abort .abort
  | ub : Like .ub .ub

theorem Like.bind {α β : Type} {x y : Exec (Client × α)} {f g : Client × α → Exec (Client × β)} (h : Like x y)
    (k : ∀ c c' a, x = .ok (c, a) → Pair c c' → Like (f (c, a)) (g (c', a))) : Like (x >>= f) (y >>= g) := by
  cases h with
  | ok h => exact k _ _ _ rfl h
  | throws => exact .throws
  | abort => exact .abort
  | ub => exact .ub

theorem Peers.received {b b' : PduBuf} (h : Peers b b') (bytes : List UInt8) : Peers (b.received bytes) (b'.received bytes) := by
  refine ⟨?_, h.pos, ?_, ?_⟩
  · show b'.len + _ = b.len + _
    rw [h.len]
  · intro i hi
    show memWrite b.buf b.len bytes i = memWrite b'.buf b'.len bytes i
    rw [h.len]
    unfold memWrite
    by_cases k : i < b.len
    · rw [if_neg (by omega), if_neg (by omega), h.mem i k]
    · rw [if_pos ⟨by omega, by exact hi⟩, if_pos ⟨by omega, by exact hi⟩]
  · intro k
    obtain ⟨h1, h2⟩ := h.over k
    have e : beAt (b.received bytes).buf 4 = beAt b.buf 4 := beAt_same (n := 6) (fun i hi => by
      show memWrite b.buf b.len bytes i = b.buf i
      unfold memWrite
      rw [if_neg (by omega)]) (by omega)
    rw [e]
    exact ⟨Nat.le_trans h1 (Nat.le_add_right ..), Nat.le_trans h2 (Nat.le_add_right ..)⟩

/-! ## Decoding -/

/-- What a decoded answer is reported as. -/
def verdict (m : Mem) (p : Pending) : COut :=
  let err := rspError p.clientId p.transactId
  if beAt m 2 ≠ 0 then err
  else if p.transactId ≠ beAt m 0 then err
  else if p.addr ≠ (m 6).toNat then err
  else if (m 7).toNat = fError then rspModbusError p.clientId p.transactId (m 8).toNat
  else if p.func ≠ (m 7).toNat then err
  else if isRegFunc (m 7).toNat then
    if beAt m 4 ≠ (m 8).toNat + 3 then err
    else if (m 8).toNat % 2 ≠ 0 then err
    else rspSuccess p.clientId p.transactId (regBytes m 9 ((m 8).toNat / 2))
  else if isSingleFunc (m 7).toNat then
    if beAt m 4 ≠ 6 then err
    else rspSuccess p.clientId p.transactId (regBytes m 10 1)
  else if (m 7).toNat = fPresetMulti then
    if beAt m 4 ≠ 6 then err
    else rspSuccess p.clientId p.transactId []
  else err

theorem regBytes_length (m : Mem) : ∀ (n i : Nat), (regBytes m i n).length = 2 * n
  | 0, _ => rfl
  | n + 1, i => by
    simp only [regBytes, List.length_cons, regBytes_length m n]
    omega

theorem memRead_regBytes (d m : Mem) {n i k : Nat} (h : 2 * n = k) : memRead (memWrite d 0 (regBytes m i n)) 0 k = regBytes m i n := by
  have := MsgStorage.memRead_memWrite_same d 0 (regBytes m i n)
  rwa [regBytes_length, h] at this

theorem evaluate_ok (c : Client) (p : Pending) (h0 : c.pdu.len = beAt c.pdu.buf 4 + 6 → c.pdu.pos = 0) : evaluate c p =
    if c.pdu.len < 6 then .ok (c, [], .noerror)
    else if 254 ≤ beAt c.pdu.buf 4 then .ok (c, [], .done)
    else if c.pdu.len < beAt c.pdu.buf 4 then .ok (c, [], .noerror)
    else if c.pdu.len ≠ beAt c.pdu.buf 4 + 6 then .ok (c, [rspError p.clientId p.transactId], .done)
    else .ok ({ c with pdu := { c.pdu with pos := (parseRsp c.pdu.buf 0 blankRsp).1 } }, [verdict c.pdu.buf p], .done) := by
  have hA : maxAduLen = 260 := rfl
  have e1 : isAduHdrReceived c.pdu = decide (6 ≤ c.pdu.len) := rfl
  have e2 : isAduDataLenValid c.pdu = decide (beAt c.pdu.buf 4 + 6 < 260) := rfl
  have e3 : isAduReceived c.pdu = decide (beAt c.pdu.buf 4 ≤ c.pdu.len) := rfl
  have e4 : isAduValid c.pdu = (decide (c.pdu.len < 260) && (beAt c.pdu.buf 4 + 6 == c.pdu.len)) := rfl
  unfold evaluate evaluateIn
  rw [e1, e2, e3, e4]
  by_cases k1 : c.pdu.len < 6
  · rw [if_pos (by simpa using k1), if_pos k1]
  rw [if_neg (by simpa using k1), if_neg k1]
  by_cases k2 : 254 ≤ beAt c.pdu.buf 4
  · rw [if_pos (by simp; omega), if_pos k2]
  rw [if_neg (by simp; omega), if_neg k2]
  by_cases k3 : c.pdu.len < beAt c.pdu.buf 4
  · rw [if_pos (by simp; omega), if_pos k3]
  rw [if_neg (by simp; omega), if_neg k3]
  by_cases k4 : c.pdu.len ≠ beAt c.pdu.buf 4 + 6
  · rw [if_pos (by simp; omega), if_pos k4]
  rw [if_neg (by simp; omega), if_neg k4]
  have hp := h0 (Decidable.not_not.1 k4)
  rw [decodeRsp_eq _ _ (by omega), hp, Exec.ok_bind]
  dsimp only
  rw [Nat.zero_add]
  unfold parseRsp verdict
  simp only [Nat.zero_add]
  by_cases a1 : beAt c.pdu.buf 2 ≠ 0
  · simp [a1]
  simp only [if_neg a1]
  by_cases a5 : (c.pdu.buf 7).toNat = fError
  · simp only [if_pos a5, Bool.true_eq_false, if_false]
    split
    · rfl
    split <;> rfl
  simp only [if_neg a5]
  by_cases a6 : isRegFunc (c.pdu.buf 7).toNat
  · simp only [if_pos a6]
    by_cases b1 : beAt c.pdu.buf 4 ≠ (c.pdu.buf 8).toNat + 3
    · simp only [if_pos b1, if_true, ite_self]
      rfl
    simp only [if_neg b1]
    by_cases b2 : (c.pdu.buf 8).toNat % 2 ≠ 0
    · simp only [if_pos b2, if_true, ite_self]
      rfl
    simp only [if_neg b2, Bool.true_eq_false, if_false, if_neg a5]
    rw [memRead_regBytes _ _ (by omega)]
    by_cases a2 : p.transactId ≠ beAt c.pdu.buf 0
    · simp only [if_pos a2]; rfl
    simp only [← Decidable.not_not.1 a2]
    split
    · rfl
    split
    · rfl
    split <;> rfl
  simp only [if_neg a6]
  by_cases a7 : isSingleFunc (c.pdu.buf 7).toNat
  · simp only [if_pos a7]
    by_cases b1 : beAt c.pdu.buf 4 ≠ 6
    · simp only [if_pos b1, if_true, ite_self]
      rfl
    simp only [if_neg b1, Bool.true_eq_false, if_false, if_neg a5]
    rw [memRead_regBytes _ _ (by omega)]
    by_cases a2 : p.transactId ≠ beAt c.pdu.buf 0
    · simp only [if_pos a2]; rfl
    simp only [← Decidable.not_not.1 a2]
    split
    · rfl
    split
    · rfl
    split <;> rfl
  simp only [if_neg a7]
  by_cases a8 : (c.pdu.buf 7).toNat = fPresetMulti
  · simp only [if_pos a8]
    by_cases b1 : beAt c.pdu.buf 4 ≠ 6
    · simp only [if_pos b1, if_true, ite_self]
      rfl
    simp only [if_neg b1, Bool.true_eq_false, if_false, if_neg a5]
    by_cases a2 : p.transactId ≠ beAt c.pdu.buf 0
    · simp only [if_pos a2]; rfl
    simp only [← Decidable.not_not.1 a2]
    split
    · rfl
    split
    · rfl
    split <;> rfl
  simp only [if_neg a8, if_true, ite_self]
  rfl

/-- What is reported rests on received bytes, unless they are a stub. -/
theorem verdict_same {m m' : Mem} {p : Pending} {w : List UInt8} (hw : w.length = beAt m 4 + 6) (h1 : ∀ i, i < w.length → w.getD i 0 = m i)
    (h2 : ∀ i, i < w.length → m i = m' i) (hs : ¬ Stub w p) : verdict m p = verdict m' p := by
  have e0 := beAt_same h2 (i := 0) (by omega)
  have e2 := beAt_same h2 (i := 2) (by omega)
  have e4 := beAt_same h2 (i := 4) (by omega)
  have w0 : ∀ i, i + 1 < w.length → wordAt w i = beAt m i := fun i hi => by
    simp only [wordAt, byteAt, beAt, h1 i (by omega), h1 (i + 1) hi]
  have b0 : ∀ i, i < w.length → byteAt w i = (m i).toNat := fun i hi => by
    simp only [byteAt, h1 i hi]
  unfold verdict
  dsimp only
  rw [← e0, ← e2, ← e4]
  by_cases a1 : beAt m 2 ≠ 0
  · rw [if_pos a1, if_pos a1]
  rw [if_neg a1, if_neg a1]
  by_cases a2 : p.transactId ≠ beAt m 0
  · rw [if_pos a2, if_pos a2]
  rw [if_neg a2, if_neg a2]
  replace a1 := Decidable.not_not.1 a1
  replace a2 := Decidable.not_not.1 a2
  by_cases hl : w.length < 9
  · have h7 : 7 ≤ w.length := by
      by_cases k : 7 ≤ w.length
      · exact k
      · exact absurd ⟨hl, by rw [w0 4 (by omega), hw], by rw [w0 2 (by omega), a1], by rw [w0 0 (by omega), a2], fun e => absurd e k, fun e => by omega⟩ hs
    rw [← h2 6 (by omega)]
    by_cases a3 : p.addr ≠ (m 6).toNat
    · rw [if_pos a3, if_pos a3]
    rw [if_neg a3, if_neg a3]
    replace a3 := Decidable.not_not.1 a3
    have h8 : 8 ≤ w.length := by
      by_cases k : 8 ≤ w.length
      · exact k
      · exact absurd ⟨hl, by rw [w0 4 (by omega), hw], by rw [w0 2 (by omega), a1], by rw [w0 0 (by omega), a2], fun e => by rw [b0 6 (by omega), a3],
          fun e => absurd e k⟩ hs
    rw [← h2 7 (by omega)]
    have a5 : ¬ (m 7).toNat = fError := fun e =>
      hs ⟨hl, by rw [w0 4 (by omega), hw], by rw [w0 2 (by omega), a1], by rw [w0 0 (by omega), a2], fun _ => by rw [b0 6 (by omega), a3],
        fun _ => by rw [b0 7 (by omega), e]; rfl⟩
    rw [if_neg a5, if_neg a5]
    have n1 : beAt m 4 ≠ (m 8).toNat + 3 := by omega
    have n2 : beAt m 4 ≠ (m' 8).toNat + 3 := by omega
    have n3 : beAt m 4 ≠ 6 := by omega
    simp only [if_pos n1, if_pos n2, if_pos n3]
  · rw [← h2 6 (by omega), ← h2 7 (by omega), ← h2 8 (by omega)]
    by_cases b1 : beAt m 4 ≠ (m 8).toNat + 3
    · simp only [if_pos b1]
      by_cases b2 : beAt m 4 ≠ 6
      · simp only [if_pos b2]
      · rw [regBytes_same 1 10 fun j _ hj => h2 j (by omega)]
    · rw [regBytes_same ((m 8).toNat / 2) 9 fun j _ hj => h2 j (by omega)]
      by_cases b2 : beAt m 4 ≠ 6
      · simp only [if_pos b2]
      · rw [regBytes_same 1 10 fun j _ hj => h2 j (by omega)]

theorem parseRsp_moves (m : Mem) (a : AduRsp) : (parseRsp m 0 a).1 ≠ 0 := by
  unfold parseRsp
  dsimp only
  repeat' split
  all_goals simp

/-! ## Events -/

theorem evaluate_pair {c c' : Client} {p : Pending} (h : Pair c c') (h0 : c.pdu.len = beAt c.pdu.buf 4 + 6 → c.pdu.pos = 0)
    (hs : c.pdu.pos = 0 → ¬ Stub c.pdu.content p) : Like (evaluate c p) (evaluate c' p) := by
  obtain ⟨b', rfl, hb⟩ := h
  have h4 : 6 ≤ c.pdu.len → beAt c.pdu.buf 4 = beAt b'.buf 4 := fun e => beAt_same hb.mem (by omega)
  have same : ∀ (o : List COut) (r : Status), Like (.ok (c, o, r)) (.ok ({ c with pdu := b' }, o, r)) := fun o r => .ok ⟨b', rfl, hb⟩
  rw [evaluate_ok c p h0, evaluate_ok _ p (by
    intro e
    dsimp only at e ⊢
    rw [hb.len] at e
    exact hb.pos.2 (h0 (by rw [e, h4 (by omega)])))]
  dsimp only
  rw [hb.len]
  by_cases k1 : c.pdu.len < 6
  · rw [if_pos k1, if_pos k1]
    exact same _ _
  rw [if_neg k1, if_neg k1, ← h4 (by omega)]
  by_cases k2 : 254 ≤ beAt c.pdu.buf 4
  · rw [if_pos k2, if_pos k2]
    exact same _ _
  rw [if_neg k2, if_neg k2]
  by_cases k3 : c.pdu.len < beAt c.pdu.buf 4
  · rw [if_pos k3, if_pos k3]
    exact same _ _
  rw [if_neg k3, if_neg k3]
  by_cases k4 : c.pdu.len ≠ beAt c.pdu.buf 4 + 6
  · rw [if_pos k4, if_pos k4]
    exact same _ _
  rw [if_neg k4, if_neg k4]
  replace k4 := Decidable.not_not.1 k4
  have hl : c.pdu.content.length = c.pdu.len := by simp [PduBuf.content, memRead]
  have hv : verdict c.pdu.buf p = verdict b'.buf p := by
    refine verdict_same (w := c.pdu.content) (hl.trans k4) ?_ ?_ (hs (h0 k4))
    · intro i hi
      rw [hl] at hi
      simp [PduBuf.content, memRead, hi]
    · intro i hi
      rw [hl] at hi
      exact hb.mem i hi
  rw [hv]
  exact .ok ⟨_, rfl, rfl, ⟨fun e => absurd e (parseRsp_moves _ _), fun e => absurd e (parseRsp_moves _ _)⟩, hb.mem, fun _ => ⟨by dsimp only; omega, by dsimp only; omega⟩⟩

theorem receive_pair {c c' : Client} {rx : Rx} (h : Pair c c') (hc : Clear c (.data rx)) : Like (c.receive rx) (c'.receive rx) := by
  obtain ⟨b', rfl, hb⟩ := h
  have same : ∀ (o : List COut) (r : Status), Like (.ok (c, o, r)) (.ok ({ c with pdu := b' }, o, r)) := fun o r => .ok ⟨b', rfl, hb⟩
  unfold receive
  dsimp only
  rw [hb.len]
  by_cases k1 : c.pdu.len > maxAduLen
  · rw [if_pos k1, if_pos k1]
    exact same _ _
  rw [if_neg k1, if_neg k1]
  by_cases k2 : c.opened = false
  · rw [if_pos k2, if_pos k2]
    exact same _ _
  rw [if_neg k2, if_neg k2]
  cases rx with
  | na => exact same _ _
  | error => exact same _ _
  | ok bytes =>
    dsimp only
    have hcap : b'.capacity = c.pdu.capacity := by simp only [PduBuf.capacity, hb.len]
    rw [hcap]
    have hr := hb.received (bytes.take c.pdu.capacity)
    cases hp : c.pending with
    | nil =>
      refine .ok ⟨_, rfl, rfl, hb.pos, ?_, ?_⟩
      · intro i hi
        have := hr.mem i (Nat.lt_of_lt_of_le hi (Nat.le_add_right ..))
        simp only [PduBuf.received, hb.len] at this
        exact this
      · intro k
        obtain ⟨g1, g2⟩ := hb.over k
        refine ⟨g1, ?_⟩
        have e : beAt (memWrite c.pdu.buf c.pdu.len (bytes.take c.pdu.capacity)) 4 = beAt c.pdu.buf 4 := beAt_same (n := 6) (fun i hi => by
          unfold memWrite
          rw [if_neg (by omega)]) (by omega)
        dsimp only
        rw [e]
        exact g2
    | cons p ps =>
      obtain ⟨c1, c2⟩ := hc p ps hp
      dsimp only
      refine evaluate_pair ⟨_, rfl, hr⟩ ?_ ?_
      · intro e
        show c.pdu.pos = 0
        by_cases k : c.pdu.pos = 0
        · exact k
        · exfalso
          obtain ⟨g1, g2⟩ := hb.over k
          by_cases hn : bytes = []
          · exact k (c1 hn)
          · have e1 : beAt (c.pdu.received (bytes.take c.pdu.capacity)).buf 4 = beAt c.pdu.buf 4 := beAt_same (n := 6) (fun i hi => by
              show memWrite c.pdu.buf c.pdu.len (bytes.take c.pdu.capacity) i = c.pdu.buf i
              unfold memWrite
              rw [if_neg (by omega)]) (by omega)
            dsimp only at e
            rw [e1] at e
            have : (c.pdu.received (bytes.take c.pdu.capacity)).len = c.pdu.len + (bytes.take c.pdu.capacity).length := rfl
            have := List.length_pos_iff.2 hn
            have : c.pdu.capacity = 512 - c.pdu.len := rfl
            have hA : maxAduLen = 260 := rfl
            rw [List.length_take] at *
            omega
      · intro k
        rw [content_received]
        exact c2 k

theorem fail_pair {α : Type} {c c' : Client} (h : Pair c c') (f : List COut → α) : Like (.ok (c.fail.1, f c.fail.2)) (.ok (c'.fail.1, f c'.fail.2)) := by
  obtain ⟨b', rfl, hb⟩ := h
  obtain ⟨st, pending, pdu, timer, opened⟩ := c
  cases st <;> exact .ok ⟨_, rfl, hb⟩

theorem transit_pair {α : Type} {c c' : Client} (h : Pair c c') (s : CSt) (ok : Bool) (a : α) : Like (.ok (c.transit s ok, a)) (.ok (c'.transit s ok, a)) := by
  obtain ⟨b', rfl, hb⟩ := h
  obtain ⟨st, pending, pdu, timer, opened⟩ := c
  have fresh : Peers pdu.reset b'.reset := ⟨rfl, ⟨fun _ => rfl, fun _ => rfl⟩, fun i hi => absurd hi (Nat.not_lt_zero i), fun k => absurd rfl k⟩
  cases st <;> cases s <;> first | exact .ok ⟨_, rfl, hb⟩ | exact .ok ⟨_, rfl, fresh⟩

/-- Events have the same effects. -/
theorem step_pair {c c' : Client} {e : Ev} (h : Pair c c') (hc : Clear c e) : Like (c.step e) (c'.step e) := by
  obtain ⟨b', rfl, hb⟩ := h
  obtain ⟨st, pending, pdu, timer, opened⟩ := c
  have mk : ∀ st p t o, Pair ⟨st, p, pdu, t, o⟩ ⟨st, p, b', t, o⟩ := fun _ _ _ _ => ⟨b', rfl, hb⟩
  cases e with
  | start ok =>
    cases st
    · exact transit_pair (mk _ _ _ _) _ _ _
    all_goals exact .ok (mk _ _ _ _)
  | req r =>
    unfold step
    dsimp only
    cases storePush pending r with
    | throws => exact .throws
    | abort => exact .abort
    | ub => exact .ub
    | ok x =>
      obtain ⟨l, ok⟩ := x
      rw [Exec.ok_bind, Exec.ok_bind]
      dsimp only
      split
      · cases st
        case connected => exact transit_pair (mk _ _ _ _) _ _ _
        all_goals exact .ok (mk _ _ _ _)
      · exact .ok (mk _ _ _ _)
  | connected =>
    cases opened
    all_goals
      cases st
      case connect => exact transit_pair (mk _ _ _ _) _ _ _
      all_goals exact .ok (mk _ _ _ _)
  | data rx =>
    cases st
    case init => exact .ok (mk _ _ _ _)
    case connect => exact .ok (mk _ _ _ _)
    case backoff => exact .ok (mk _ _ _ _)
    all_goals
      refine (receive_pair (mk _ _ _ _) hc).bind ?_
      rintro d d' ⟨o, s⟩ _ hd
      cases s
      case error => exact fail_pair hd (o ++ ·)
      all_goals first | exact .ok hd | exact transit_pair hd _ _ _
  | linkError =>
    cases st
    case connect => exact transit_pair (mk _ _ _ _) _ _ _
    all_goals exact .ok (mk _ _ _ _)
  | timer sendOk connectOk =>
    cases timer
    · exact .ok (mk _ _ _ _)
    cases st
    case init => exact .ok (mk _ _ _ _)
    case connected => exact .ok (mk _ _ _ _)
    case send =>
      refine Like.bind (α := List COut × Status) ?_ ?_
      · rw [send_body, send_body]
        dsimp only
        cases pending with
        | nil => exact .ok (mk _ _ _ _)
        | cons p ps =>
          dsimp only
          cases encodeReq (PduBuf.fresh fun _ => 0) (reqOfPending p) with
          | throws => exact .throws
          | abort => exact .abort
          | ub => exact .ub
          | ok x =>
            obtain ⟨buf, ok⟩ := x
            rw [Exec.ok_bind, Exec.ok_bind]
            dsimp only
            split
            · exact .ok (mk _ _ _ _)
            split <;> exact .ok (mk _ _ _ _)
      · rintro d d' ⟨o, s⟩ _ hd
        cases s
        case error => exact fail_pair hd (o ++ ·)
        case codecError =>
          obtain ⟨b', rfl, hb⟩ := hd
          exact .ok ⟨b', rfl, hb⟩
        all_goals exact transit_pair hd _ _ _
    all_goals exact transit_pair (mk _ _ _ _) _ _ _

/-- Histories have the same effects. -/
theorem run_pair : ∀ (es : List Ev) {c c' : Client}, Pair c c' → AllClear c es → Like (c.run es) (c'.run es)
  | [], _, _, h, _ => .ok h
  | e :: es, c, c', h, ha => by
    unfold run
    refine (step_pair h ha.1).bind ?_
    intro d d' o hd hp
    dsimp only
    refine (run_pair es hp (ha.2 d o hd)).bind ?_
    intro d1 d1' tr _ hp1
    exact .ok hp1

end Uscada.Modbus.Client
