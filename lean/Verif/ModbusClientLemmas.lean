import Verif.ModbusClient
/-!
# Lemmas about the Modbus client model
-/

namespace Uscada.Modbus

open AduStorage (Pending pendingOf)

namespace Client

/-- Client and transaction id of a request. -/
abbrev pid (p : Pending) : Nat × Nat := (p.clientId, p.transactId)

/-- The identifiers of the responses among some effects. -/
def ids : List COut → List (Nat × Nat)
  | [] => []
  | .rsp r :: os => (r.clientId, r.transactId) :: ids os
  | .frame _ :: os => ids os

@[simp] theorem ids_nil : ids [] = [] := rfl
@[simp] theorem ids_rspError (a b : Nat) (os : List COut) : ids (rspError a b :: os) = (a, b) :: ids os := rfl
@[simp] theorem ids_rspModbusError (a b e : Nat) (os : List COut) :
    ids (rspModbusError a b e :: os) = (a, b) :: ids os := rfl
@[simp] theorem ids_rspSuccess (a b : Nat) (d : List UInt8) (os : List COut) :
    ids (rspSuccess a b d :: os) = (a, b) :: ids os := rfl
@[simp] theorem ids_frame (w : List UInt8) (os : List COut) : ids (.frame w :: os) = ids os := rfl

@[simp] theorem ids_append (a b : List COut) : ids (a ++ b) = ids a ++ ids b := by
  induction a with
  | nil => rfl
  | cons x a ih => cases x <;> simp [ids, ih]

@[simp] theorem ids_drain (l : List Pending) :
    ids (l.map fun p => rspError p.clientId p.transactId) = l.map pid := by
  induction l with
  | nil => rfl
  | cons x l ih => simp [ih]

/-- A stored request: the bytes it announces are there. -/
def PendingOk (p : Pending) : Prop := p.data.length = p.numBytes ∧ p.numBytes ≤ 260

/-- States in which requests wait. -/
def busy (s : CSt) : Prop := s = .send ∨ s = .receive

/-- The invariant of every client. -/
structure Inv (c : Client) : Prop where
  idle : ¬ busy c.st → c.pending = []
  armed : busy c.st → c.timer = true
  armed' : (c.st = .connect ∨ c.st = .backoff) → c.timer = true
  ok : ∀ p ∈ c.pending, PendingOk p
  size : c.pending.length ≤ 64
  rcv : c.st = .receive → c.pending ≠ [] ∧ c.pdu.pos = 0 ∧ c.pdu.len < 260
  cap : c.pdu.len ≤ 512

theorem inv_create (m : Mem) : Inv (create m) :=
  ⟨fun _ => rfl, by simp [create, busy], by simp [create], by simp [create], by simp [create],
    by simp [create], by simp [create, PduBuf.fresh]⟩

theorem ite_ok {α : Type} {p : Prop} [Decidable p] {x y : Exec α} (hx : ∃ a, x = .ok a)
    (hy : ∃ a, y = .ok a) : ∃ a, (if p then x else y) = .ok a := by
  split
  · exact hx
  · exact hy

/-! ## `evaluate` and `receive` -/

theorem decodeRsp_len {b b' : PduBuf} {a a' : AduRsp} {ok : Bool}
    (h : decodeRsp b a = .ok (b', a', ok)) : b'.len = b.len := by
  have hr : ∀ {b b' : PduBuf} {v : Nat}, b.read = .ok (v, b') → b'.len = b.len := by
    intro b b' v h
    unfold PduBuf.read at h
    split at h
    · cases h; rfl
    · cases h
  have hrb : ∀ {b b' : PduBuf} {v : Nat}, b.readBe = .ok (v, b') → b'.len = b.len := by
    intro b b' v h
    unfold PduBuf.readBe at h
    obtain ⟨⟨v1, b1⟩, h1, h⟩ := Exec.bind_eq_ok.1 h
    obtain ⟨⟨v2, b2⟩, h2, h⟩ := Exec.bind_eq_ok.1 h
    cases h
    rw [hr h2, hr h1]
  have hrr : ∀ (n : Nat) {b b' : PduBuf} {d d' : Mem} {cap i : Nat},
      readRegs b d cap i n = .ok (b', d') → b'.len = b.len := by
    intro n
    induction n with
    | zero => intro b b' d d' cap i h; unfold readRegs at h; cases h; rfl
    | succ n ih =>
      intro b b' d d' cap i h
      unfold readRegs at h
      obtain ⟨⟨v1, b1⟩, h1, h⟩ := Exec.bind_eq_ok.1 h
      obtain ⟨d1, h2, h⟩ := Exec.bind_eq_ok.1 h
      obtain ⟨⟨v2, b2⟩, h3, h⟩ := Exec.bind_eq_ok.1 h
      obtain ⟨d2, h4, h⟩ := Exec.bind_eq_ok.1 h
      rw [ih h, hr h3, hr h1]
  unfold decodeRsp at h
  obtain ⟨⟨t, b1⟩, h1, h⟩ := Exec.bind_eq_ok.1 h
  obtain ⟨⟨t, b2⟩, h2, h⟩ := Exec.bind_eq_ok.1 h
  have l2 : b2.len = b.len := by rw [hrb h2, hrb h1]
  dsimp only at h
  split at h
  · cases h; exact l2
  obtain ⟨⟨t, b3⟩, h3, h⟩ := Exec.bind_eq_ok.1 h
  obtain ⟨⟨t, b4⟩, h4, h⟩ := Exec.bind_eq_ok.1 h
  obtain ⟨⟨t, b5⟩, h5, h⟩ := Exec.bind_eq_ok.1 h
  have l5 : b5.len = b.len := by rw [hr h5, hr h4, hrb h3, l2]
  dsimp only at h
  split at h
  · obtain ⟨⟨t, b6⟩, h6, h⟩ := Exec.bind_eq_ok.1 h
    cases h; rw [hr h6, l5]
  split at h
  · obtain ⟨⟨t, b6⟩, h6, h⟩ := Exec.bind_eq_ok.1 h
    have l6 : b6.len = b.len := by rw [hr h6, l5]
    dsimp only at h
    split at h
    · cases h; exact l6
    split at h
    · cases h; exact l6
    obtain ⟨⟨b7, d⟩, h7, h⟩ := Exec.bind_eq_ok.1 h
    cases h
    rw [hrr _ h7, l6]
  split at h
  · split at h
    · cases h; exact l5
    obtain ⟨⟨t, b6⟩, h6, h⟩ := Exec.bind_eq_ok.1 h
    obtain ⟨⟨b7, d⟩, h7, h⟩ := Exec.bind_eq_ok.1 h
    cases h
    rw [hrr _ h7, hrb h6, l5]
  split at h
  · split at h
    · cases h; exact l5
    obtain ⟨⟨t, b6⟩, h6, h⟩ := Exec.bind_eq_ok.1 h
    obtain ⟨⟨t, b7⟩, h7, h⟩ := Exec.bind_eq_ok.1 h
    cases h
    rw [hrb h7, hrb h6, l5]
  · cases h; exact l5


/-- What `evaluate` does with well-placed input. -/
theorem evaluate_spec {c c' : Client} {p : Pending} {o : List COut} {s : Status}
    (h : evaluate c p = .ok (c', o, s)) :
    c'.st = c.st ∧ c'.pending = c.pending ∧ c'.timer = c.timer ∧ c'.opened = c.opened ∧
    c'.pdu.len = c.pdu.len ∧ (s = .noerror ∨ s = .done) ∧ (s = .noerror → c' = c ∧ o = []) ∧
    (ids o = [] ∨ ids o = [pid p]) ∧
    (s = .noerror → c.pdu.len < 6 ∨ c.pdu.len < aduPktLen c.pdu ∧ aduPktLen c.pdu + 6 < 260) ∧
    (s = .done → isAduHdrReceived c.pdu = true) ∧
    (s = .done → isAduDataLenValid c.pdu = true → ids o = [pid p]) := by
  unfold evaluate evaluateIn at h
  by_cases h1 : isAduHdrReceived c.pdu = false
  · rw [if_pos h1] at h; cases h
    have : c.pdu.len < 6 := by
      simp only [isAduHdrReceived, aduHdrLen, ge_iff_le, decide_eq_false_iff_not] at h1; omega
    simp [this]
  rw [if_neg h1] at h
  have h1' : isAduHdrReceived c.pdu = true := by simpa using h1
  by_cases h2 : isAduDataLenValid c.pdu = false
  · rw [if_pos h2] at h; cases h; simp [h1', h2]
  rw [if_neg h2] at h
  have h2' : isAduDataLenValid c.pdu = true := by simpa using h2
  by_cases h3 : isAduReceived c.pdu = false
  · rw [if_pos h3] at h; cases h
    have e1 : c.pdu.len < aduPktLen c.pdu := by
      simp only [isAduReceived, ge_iff_le, decide_eq_false_iff_not] at h3; omega
    have e2 : aduPktLen c.pdu + 6 < 260 := by
      have hA : maxAduLen = 260 := rfl
      have hB : aduHdrLen = 6 := rfl
      simp only [isAduDataLenValid, decide_eq_true_eq] at h2'; omega
    simp [e1, e2]
  rw [if_neg h3] at h
  by_cases h4 : isAduValid c.pdu = false
  · rw [if_pos h4] at h; cases h; simp [h1', pid]
  rw [if_neg h4] at h
  obtain ⟨⟨b, a, ok⟩, hd, h⟩ := Exec.bind_eq_ok.1 h
  have hlen : b.len = c.pdu.len := decodeRsp_len hd
  simp only [Exec.pure_eq] at h
  by_cases k1 : ok = false
  · rw [if_pos k1] at h; cases h; simp [h1', hlen]
  rw [if_neg k1] at h
  by_cases k2 : p.transactId ≠ a.transactId
  · rw [if_pos k2] at h; cases h; simp [h1', hlen]
  rw [if_neg k2] at h
  by_cases k3 : p.addr ≠ a.addr
  · rw [if_pos k3] at h; cases h; simp [h1', hlen]
  rw [if_neg k3] at h
  by_cases k4 : a.func = fError
  · rw [if_pos k4] at h; cases h; simp [h1', hlen]
  rw [if_neg k4] at h
  by_cases k5 : p.func ≠ a.func
  · rw [if_pos k5] at h; cases h; simp [h1', hlen]
  rw [if_neg k5] at h
  cases h
  have : a.transactId = p.transactId := by simpa using Eq.symm (Decidable.not_not.1 k2)
  simp [h1', hlen, this]
/-- `evaluate` is safe when decoding starts at the front of the buffer. -/
theorem evaluate_safe (c : Client) (p : Pending) (h : c.pdu.pos = 0) :
    ∃ c' o s, evaluate c p = .ok (c', o, s) := by
  have h : ∃ r, evaluate c p = .ok r := by
    unfold evaluate evaluateIn
    rw [decodeRsp_eq c.pdu blankRsp (by omega)]
    simp only [Exec.ok_bind, Exec.pure_eq]
    repeat' refine ite_ok ?_ ?_
    all_goals exact ⟨_, rfl⟩
  obtain ⟨⟨c', o, s⟩, h⟩ := h
  exact ⟨c', o, s, h⟩

/-- What `receive` does. -/
theorem receive_spec {c c' : Client} {rx : Rx} {o : List COut} {s : Status}
    (hcap : c.pdu.len ≤ 512) (h : receive c rx = .ok (c', o, s)) :
    c'.st = c.st ∧ c'.pending = c.pending ∧ c'.timer = c.timer ∧ c'.opened = c.opened ∧
    c'.pdu.len ≤ 512 ∧ s ≠ .codecError ∧
    (ids o = [] ∨ ∃ p ps, c.pending = p :: ps ∧ ids o = [pid p]) ∧ (s ≠ .done → o = []) := by
  unfold receive at h
  split at h
  · cases h; simp [hcap]
  split at h
  · cases h; simp [hcap]
  split at h
  · cases h; simp [hcap]
  · cases h; simp [hcap]
  · rename_i bytes
    dsimp only at h
    have hM : maxLen = 512 := rfl
    have hl : (c.pdu.received (bytes.take c.pdu.capacity)).len ≤ 512 := by
      simp [PduBuf.received, PduBuf.capacity]; omega
    split at h
    · cases h; simp [hcap]
    · rename_i p ps hp
      obtain ⟨e1, e2, e3, e4, e5, e6, e7, e8, _⟩ := evaluate_spec h
      refine ⟨e1, e2, e3, e4, by rw [e5]; exact hl, ?_, ?_, ?_⟩
      · rcases e6 with e6 | e6 <;> simp [e6]
      · rcases e8 with e8 | e8
        · exact Or.inl e8
        · exact Or.inr ⟨p, ps, hp, e8⟩
      · intro hs
        rcases e6 with e6 | e6
        · exact (e7 e6).2
        · exact absurd e6 hs

/-! ## `send` -/

theorem send_spec {c c' : Client} {b : Bool} {o : List COut} {s : Status}
    (h : send c b = .ok (c', o, s)) :
    c'.st = c.st ∧ c'.timer = c.timer ∧ c'.opened = c.opened ∧ c'.pdu = c.pdu ∧
    ((c.pending = [] ∧ s = .noerror ∧ o = [] ∧ c'.pending = []) ∨
     ∃ p ps, c.pending = p :: ps ∧
      ((s = .codecError ∧ ids o = [pid p] ∧ c'.pending = ps) ∨
       (s = .done ∧ ids o = [] ∧ c'.pending = p :: ps) ∨
       (s = .error ∧ ids o = [] ∧ c'.pending = p :: ps))) := by
  rw [send_body] at h
  split at h
  · rename_i hp
    cases h; simp [hp]
  · rename_i p ps hp
    obtain ⟨⟨b, ok⟩, he, h⟩ := Exec.bind_eq_ok.1 h
    dsimp only [Exec.pure_eq] at h
    split at h
    · cases h; simp [hp]
    split at h
    · cases h; simp [hp]
    · cases h; simp [hp]

theorem send_safe (c : Client) (b : Bool) (h : ∀ p ∈ c.pending, PendingOk p) :
    ∃ c' o s, send c b = .ok (c', o, s) := by
  rw [send_body]
  split
  · exact ⟨_, _, _, rfl⟩
  · rename_i p ps hp
    obtain ⟨h1, h2⟩ := h p (by simp [hp])
    obtain ⟨b, ok, he, _⟩ := encodeReq_eq (fun _ => 0) (reqOfPending p)
      (by simp [reqOfPending, h1]) (by simpa [reqOfPending] using h2)
    rw [he]
    simp only [Exec.ok_bind, Exec.pure_eq]
    repeat' split
    all_goals exact ⟨_, _, _, rfl⟩

/-! ## Transitions -/

theorem transit_backoff {c : Client} (h : c.st ≠ .backoff) (hp : c.pending = []) (hcap : c.pdu.len ≤ 512)
    (ok : Bool) : Inv (c.transit .backoff ok) ∧ (c.transit .backoff ok).pending = [] := by
  unfold transit
  rw [if_neg h]
  have : ({ exit c with st := CSt.backoff } : Client).pending = [] := by
    unfold exit; cases c.st <;> simp [hp]
  refine ⟨⟨?_, ?_, ?_, ?_, ?_, ?_, ?_⟩, ?_⟩ <;>
    simp only [enter] at * <;> simp_all [busy]
  unfold exit; cases c.st <;> simpa using hcap

theorem fail_spec {c : Client} (h : c.st ≠ .backoff) (hcap : c.pdu.len ≤ 512) :
    Inv c.fail.1 ∧ c.fail.1.pending = [] ∧ ids c.fail.2 = c.pending.map pid := by
  unfold fail drain
  dsimp only
  obtain ⟨h1, h2⟩ := transit_backoff (c := { c with pending := [], opened := false }) h rfl hcap false
  exact ⟨h1, h2, ids_drain _⟩

/-- Entering the send state, from where a pending request may be removed on exit. -/
theorem transit_send {c : Client} (h : c.st ≠ .send) (hok : ∀ p ∈ c.pending, PendingOk p)
    (hsz : c.pending.length ≤ 64) (hcap : c.pdu.len ≤ 512) :
    Inv (c.transit .send) ∧
    (c.transit .send).pending = (if c.st = .receive then c.pending.tail else c.pending) ∧
    (c.transit .send).st = .send := by
  unfold transit
  rw [if_neg h]
  have hmem : ∀ q ∈ (exit c).pending, q ∈ c.pending := by
    unfold exit
    cases c.st <;> simp
    exact fun q hq => List.mem_of_mem_tail hq
  have hlen : (exit c).pending.length ≤ 64 := by
    unfold exit
    cases c.st <;> simp <;> omega
  have hpdu : (exit c).pdu.len ≤ 512 := by
    unfold exit; cases c.st <;> simpa using hcap
  refine ⟨⟨?_, ?_, ?_, ?_, ?_, ?_, ?_⟩, ?_, ?_⟩
  · simp [enter, busy]
  · simp [enter]
  · simp [enter]
  · intro q hq; exact hok q (hmem q (by simpa [enter] using hq))
  · simpa [enter] using hlen
  · simp [enter]
  · simpa [enter] using hpdu
  · unfold exit enter; cases c.st <;> simp
  · simp [enter]

/-! ## Steps -/

theorem storePush_spec {l l' : List Pending} {r : CallerReq} {ok : Bool}
    (h : storePush l r = .ok (l', ok)) :
    (ok = true ∧ l.length < 64 ∧ r.numBytes ≤ 260 ∧ l' = l ++ [pendingOf r]) ∨
    (ok = false ∧ ¬ (l.length < 64 ∧ r.numBytes ≤ 260) ∧ l' = l) := by
  have hC : AduStorage.capacity = 64 := rfl
  have hA : maxAduLen = 260 := rfl
  unfold storePush at h
  split at h
  · rename_i hc
    left
    split at h
    · split at h
      · cases h; exact ⟨rfl, by omega, by omega, rfl⟩
      · cases h
    · cases h; exact ⟨rfl, by omega, by omega, rfl⟩
  · rename_i hc
    cases h
    exact Or.inr ⟨rfl, by omega, rfl⟩

/-- The caller provides the announced bytes: request items carry their data inline
(MsgModbusClientAduReq.hpp:14-24). -/
def CallerOk (r : CallerReq) : Prop := ∃ d, r.data = some d ∧ r.numBytes ≤ d.length

theorem pendingOk_of {r : CallerReq} (h : CallerOk r) (hn : r.numBytes ≤ 260) : PendingOk (pendingOf r) := by
  obtain ⟨d, h1, h2⟩ := h
  refine ⟨?_, hn⟩
  simp [pendingOf, h1]
  omega

/-- Every event of a history respects the callers' obligation. -/
def EvOk : Ev → Prop
  | .req r => CallerOk r
  | _ => True

/-- What one event does with the waiting requests. -/
def Account (c : Client) (o : List COut) (c' : Client) : Ev → Prop
  | .req r =>
    if c.pending.length < 64 ∧ r.numBytes ≤ 260 then
      c.pending.map pid ++ [(r.clientId, r.transactId)] = ids o ++ c'.pending.map pid
    else ids o = [(r.clientId, r.transactId)] ∧ c'.pending = c.pending
  | .data _ =>
    (ids o ++ c'.pending.map pid = c.pending.map pid) ∨
    (c.st = .send ∧ ∃ p ps, c.pending = p :: ps ∧ ids o = [pid p] ∧ c'.pending = c.pending) ∨
    (c.st = .receive ∧ ids o = [] ∧ c'.pending = c.pending.tail)
  | _ => ids o ++ c'.pending.map pid = c.pending.map pid

theorem step_spec {c c' : Client} {e : Ev} {o : List COut} (hi : Inv c) (he : EvOk e)
    (h : c.step e = .ok (c', o)) : Inv c' ∧ Account c o c' e := by
  obtain ⟨i1, i2, i3, i4, i5, i6, i7⟩ := hi
  unfold Account
  cases e with
  | start ok =>
    simp only [step] at h
    split at h
    · rename_i hs
      cases h
      have hp := i1 (by simp [busy, hs])
      refine ⟨⟨?_, ?_, ?_, ?_, ?_, ?_, ?_⟩, ?_⟩ <;>
        simp_all [transit, enter, exit, busy]
    · cases h
      exact ⟨⟨i1, i2, i3, i4, i5, i6, i7⟩, by simp⟩
  | connected =>
    simp only [step] at h
    split at h
    · cases h
      dsimp only
      unfold onConnected
      split
      · rename_i hs
        have hp := i1 (by simp [busy, hs])
        refine ⟨⟨?_, ?_, ?_, ?_, ?_, ?_, ?_⟩, ?_⟩ <;>
          simp_all [transit, enter, exit, busy]
      · exact ⟨⟨i1, i2, i3, i4, i5, i6, i7⟩, by simp⟩
    · cases h
      dsimp only
      unfold onError
      split
      · rename_i hs
        have hp := i1 (by simp [busy, hs])
        obtain ⟨h1, h2⟩ := transit_backoff (c := c) (by simp [hs]) hp i7 false
        exact ⟨h1, by simp [h2, hp]⟩
      · exact ⟨⟨i1, i2, i3, i4, i5, i6, i7⟩, by simp⟩
  | linkError =>
    simp only [step] at h
    cases h
    dsimp only
    unfold onError
    split
    · rename_i hs
      have hs' : c.st = .connect := hs
      have hp := i1 (by simp [busy, hs'])
      obtain ⟨h1, h2⟩ := transit_backoff (c := { c with opened := false }) (by simp [hs']) hp i7 false
      exact ⟨h1, by rw [h2, hp]; rfl⟩
    · exact ⟨⟨i1, i2, i3, i4, i5, i6, i7⟩, by simp⟩
  | req r =>
    simp only [step] at h
    obtain ⟨⟨l, ok⟩, h1, h⟩ := Exec.bind_eq_ok.1 h
    dsimp only at h
    rcases storePush_spec h1 with ⟨rfl, k1, k2, rfl⟩ | ⟨rfl, k1, rfl⟩
    · rw [if_pos rfl, Exec.pure_eq] at h
      have hpo := pendingOk_of he k2
      dsimp only
      rw [if_pos ⟨k1, k2⟩]
      have hok' : ∀ p ∈ c.pending ++ [pendingOf r], PendingOk p := by
        intro p hp
        rcases List.mem_append.1 hp with hp | hp
        · exact i4 p hp
        · simp at hp; rw [hp]; exact hpo
      have hdr : ∀ (hs : ¬ busy c.st), Exec.ok (drain { c with pending := c.pending ++ [pendingOf r] })
          = Exec.ok (c', o) → Inv c' ∧
            c.pending.map pid ++ [(r.clientId, r.transactId)] = ids o ++ c'.pending.map pid := by
        intro hs hd
        cases hd
        refine ⟨⟨?_, ?_, ?_, ?_, ?_, ?_, ?_⟩, ?_⟩ <;> simp_all [drain, busy]
        exact ⟨rfl, rfl⟩
      unfold onReq at h
      split at h
      · rename_i hs; exact hdr (by simp only [] at hs; simp [busy, hs]) h
      · rename_i hs; exact hdr (by simp only [] at hs; simp [busy, hs]) h
      · rename_i hs; exact hdr (by simp only [] at hs; simp [busy, hs]) h
      · rename_i hs
        simp only [] at hs
        cases h
        obtain ⟨t1, t2, t3⟩ := transit_send (c := { c with pending := c.pending ++ [pendingOf r] })
          (by simp [hs]) hok' (by simp; omega) i7
        refine ⟨t1, ?_⟩
        rw [t2]
        simp [hs, pendingOf]
      · rename_i hs
        simp only [] at hs
        cases h
        refine ⟨⟨?_, fun _ => i2 (by simp [busy, hs]), i3, hok', ?_, ?_, i7⟩, ?_⟩
        · simp [busy, hs]
        · simp; omega
        · simp [hs]
        · simp [pendingOf]
      · rename_i hs
        simp only [] at hs
        cases h
        obtain ⟨r1, r2, r3⟩ := i6 hs
        refine ⟨⟨?_, fun _ => i2 (by simp [busy, hs]), i3, hok', ?_, ?_, i7⟩, ?_⟩
        · simp [busy, hs]
        · simp; omega
        · intro _; exact ⟨by simp, r2, r3⟩
        · simp [pendingOf]
    · rw [if_neg (by simp), Exec.pure_eq] at h
      cases h
      dsimp only
      rw [if_neg k1]
      exact ⟨⟨i1, i2, i3, i4, i5, i6, i7⟩, by simp⟩
  | timer sOk cOk =>
    simp only [step] at h
    split at h
    · unfold onTimer at h
      split at h
      · rename_i hs
        simp only [] at hs
        cases h
        exact ⟨⟨i1, by simp [busy, hs], by simp [hs], i4, i5, by simp [hs], i7⟩, by simp⟩
      · rename_i hs
        simp only [] at hs
        cases h
        exact ⟨⟨i1, by simp [busy, hs], by simp [hs], i4, i5, by simp [hs], i7⟩, by simp⟩
      · rename_i hs
        simp only [] at hs
        cases h
        have hp := i1 (by simp [busy, hs])
        obtain ⟨h1, h2⟩ := transit_backoff (c := { c with timer := false, opened := false })
          (by simp [hs]) hp i7 false
        exact ⟨h1, by simp only [] at h2 ⊢; rw [h2, hp]; rfl⟩
      · rename_i hs
        simp only [] at hs
        obtain ⟨⟨c1, o1, s⟩, h1, h⟩ := Exec.bind_eq_ok.1 h
        obtain ⟨e1, e2, e3, e4, e5⟩ := send_spec h1
        simp only [] at e1 e2 e3 e4 e5
        rcases e5 with ⟨e5, rfl, rfl, e6⟩ | ⟨p, ps, e5, ⟨rfl, e6, e7⟩ | ⟨rfl, e6, e7⟩ | ⟨rfl, e6, e7⟩⟩
        · dsimp only [Exec.pure_eq] at h
          cases h
          refine ⟨⟨?_, ?_, ?_, ?_, ?_, ?_, ?_⟩, ?_⟩ <;>
            simp_all [transit, enter, exit, busy]
        · dsimp only [Exec.pure_eq] at h
          cases h
          refine ⟨⟨?_, ?_, ?_, ?_, ?_, ?_, ?_⟩, ?_⟩ <;> simp_all [busy]
          omega
        · dsimp only [Exec.pure_eq] at h
          cases h
          refine ⟨⟨?_, ?_, ?_, ?_, ?_, ?_, ?_⟩, ?_⟩ <;>
            simp_all [transit, enter, exit, busy, PduBuf.reset]
        · dsimp only [Exec.pure_eq] at h
          cases h
          obtain ⟨f1, f2, f3⟩ := fail_spec (c := c1) (by simp [e1, hs]) (by rw [e4]; exact i7)
          refine ⟨f1, ?_⟩
          simp only [ids_append, f2, f3, e6, e7, e5]
          simp
      · rename_i hs
        simp only [] at hs
        cases h
        obtain ⟨r1, _⟩ := i6 hs
        obtain ⟨p, ps, hp⟩ := List.exists_cons_of_ne_nil r1
        obtain ⟨t1, t2, t3⟩ := transit_send (c := { c with timer := false })
          (by simp [hs]) i4 i5 i7
        refine ⟨t1, ?_⟩
        dsimp only
        dsimp only at t2
        rw [t2]
        simp [hs, hp]
      · rename_i hs
        simp only [] at hs
        cases h
        have hp := i1 (by simp [busy, hs])
        refine ⟨⟨?_, ?_, ?_, ?_, ?_, ?_, ?_⟩, ?_⟩ <;>
          simp_all [transit, enter, exit, busy]
    · cases h
      exact ⟨⟨i1, i2, i3, i4, i5, i6, i7⟩, by simp⟩
  | data rx =>
    simp only [step] at h
    unfold onData at h
    have hun : Exec.ok (c, []) = Exec.ok (c', o) → Inv c' ∧ ids o ++ c'.pending.map pid = c.pending.map pid := by
      intro hh; cases hh
      exact ⟨⟨i1, i2, i3, i4, i5, i6, i7⟩, by simp⟩
    split at h
    · obtain ⟨a, b⟩ := hun h; exact ⟨a, Or.inl b⟩
    · obtain ⟨a, b⟩ := hun h; exact ⟨a, Or.inl b⟩
    · obtain ⟨a, b⟩ := hun h; exact ⟨a, Or.inl b⟩
    · -- connected
      rename_i hs
      have hp := i1 (by simp [busy, hs])
      obtain ⟨⟨c1, o1, s⟩, h1, h⟩ := Exec.bind_eq_ok.1 h
      obtain ⟨e1, e2, e3, e4, e5, e6, e7, e8⟩ := receive_spec i7 h1
      have ho : ids o1 = [] := by
        rcases e7 with e7 | ⟨p, ps, e7, _⟩
        · exact e7
        · rw [hp] at e7; cases e7
      dsimp only at h
      split at h
      · cases h
        obtain ⟨f1, f2, f3⟩ := fail_spec (c := c1) (by simp [e1, hs]) e5
        refine ⟨f1, Or.inl ?_⟩
        simp only [ids_append, f2, f3, e2, hp, ho]
        rfl
      · cases h
        refine ⟨⟨?_, ?_, ?_, ?_, ?_, ?_, ?_⟩, Or.inl ?_⟩ <;> simp_all [busy]
    · -- send
      rename_i hs
      have ht := i2 (by simp [busy, hs])
      obtain ⟨⟨c1, o1, s⟩, h1, h⟩ := Exec.bind_eq_ok.1 h
      obtain ⟨e1, e2, e3, e4, e5, e6, e7, e8⟩ := receive_spec i7 h1
      dsimp only at h
      split at h
      · have ho : o1 = [] := e8 (by simp)
        cases h
        obtain ⟨f1, f2, f3⟩ := fail_spec (c := c1) (by simp [e1, hs]) e5
        refine ⟨f1, Or.inl ?_⟩
        simp [f2, f3, e2, ho]
      · cases h
        refine ⟨⟨?_, ?_, ?_, ?_, ?_, ?_, ?_⟩, ?_⟩
        rotate_right
        · rcases e7 with e7 | ⟨p, ps, e7, e9⟩
          · exact Or.inl (by simp [e7, e2])
          · exact Or.inr (Or.inl ⟨hs, p, ps, e7, e9, e2⟩)
        all_goals simp_all [busy]
    · -- receive
      rename_i hs
      have ht := i2 (by simp [busy, hs])
      obtain ⟨r1, r2, r3⟩ := i6 hs
      obtain ⟨⟨c1, o1, s⟩, h1, h⟩ := Exec.bind_eq_ok.1 h
      obtain ⟨e1, e2, e3, e4, e5, e6, e7, e8⟩ := receive_spec i7 h1
      dsimp only at h
      split at h
      · have ho : o1 = [] := e8 (by simp)
        cases h
        obtain ⟨f1, f2, f3⟩ := fail_spec (c := c1) (by simp [e1, hs]) e5
        refine ⟨f1, Or.inl ?_⟩
        simp [f2, f3, e2, ho]
      · cases h
        obtain ⟨t1, t2, t3⟩ := transit_send (c := c1) (by simp [e1, hs]) (by rw [e2]; exact i4)
          (by rw [e2]; exact i5) e5
        refine ⟨t1, ?_⟩
        rw [t2, e1, hs, if_pos rfl, e2]
        rcases e7 with e7 | ⟨p, ps, e7, e9⟩
        · exact Or.inr (Or.inr ⟨rfl, e7, rfl⟩)
        · left; simp [e7, e9]
      · rename_i hne1 hne2
        cases h
        have ho : o = [] := e8 hne2
        -- nothing was decoded: position and length keep their bounds
        have hrcv : c'.pdu.pos = 0 ∧ c'.pdu.len < 260 := by
          have hM : maxLen = 512 := rfl
          unfold receive at h1
          split at h1
          · cases h1; exact ⟨r2, r3⟩
          split at h1
          · cases h1; exact ⟨r2, r3⟩
          split at h1
          · cases h1; exact ⟨r2, r3⟩
          · cases h1; exact ⟨r2, r3⟩
          · dsimp only at h1
            split at h1
            · rename_i hp; exact absurd hp r1
            · obtain ⟨_, _, _, _, g5, g6, g7, _, g9, _⟩ := evaluate_spec h1
              have hs' : s = .noerror := by
                rcases g6 with g6 | g6
                · exact g6
                · exact absurd g6 hne2
              obtain ⟨g7, _⟩ := g7 hs'
              refine ⟨by rw [g7]; exact r2, ?_⟩
              rw [g5]
              have := g9 hs'
              omega
        refine ⟨⟨?_, ?_, ?_, ?_, ?_, ?_, ?_⟩, Or.inl ?_⟩
        · intro hb; exact absurd (by simp [busy, e1, hs]) hb
        · intro _; rw [e3]; exact ht
        · rw [e1, hs]; simp
        · rw [e2]; exact i4
        · rw [e2]; exact i5
        · intro _; exact ⟨by rw [e2]; exact r1, hrcv⟩
        · exact e5
        · simp [e2, ho]

end Client

end Uscada.Modbus
