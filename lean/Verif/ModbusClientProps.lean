import Verif.ModbusClientLemmas
import Verif.ModbusCodecProps
/-!
# C14-C16: the Modbus client

C14 every request is answered exactly once, in order; C15 no request waits without a running timer;
C16 a successful answer belongs to the request.
-/

namespace Uscada.Modbus.Client

open AduStorage (Pending pendingOf)

/-! ## Specification -/

/-- A history of a client: the events, each with the effects it had. -/
abbrev Trace := List (Ev × List COut)

/-- Client and transaction id of a request item. -/
def rid (r : CallerReq) : Nat × Nat := (r.clientId, r.transactId)

/-- Identifiers of all requests submitted in a history. -/
def submitted : Trace → List (Nat × Nat)
  | [] => []
  | (.req r, _) :: tr => rid r :: submitted tr
  | _ :: tr => submitted tr

/-- Identifiers of all responses in a history. -/
def answered : Trace → List (Nat × Nat)
  | [] => []
  | (_, o) :: tr => ids o ++ answered tr

/-- A first-in first-out server: `Serves q tr q'` says that starting with the unanswered requests `q`,
the history answers requests only from the front of the queue, accepted requests join the queue at
its end, rejected ones are answered at once, and `q'` is what remains unanswered. -/
inductive Serves : List (Nat × Nat) → Trace → List (Nat × Nat) → Prop
  | nil (q) : Serves q [] q
  | accept {q q1 q' r o tr} : q.length < 64 → r.numBytes ≤ 260 → q ++ [rid r] = ids o ++ q1 →
      Serves q1 tr q' → Serves q ((.req r, o) :: tr) q'
  | reject {q q' r o tr} : ¬ (q.length < 64 ∧ r.numBytes ≤ 260) → ids o = [rid r] →
      Serves q tr q' → Serves q ((.req r, o) :: tr) q'
  | other {q q1 q' e o tr} : (∀ r, e ≠ .req r) → q = ids o ++ q1 →
      Serves q1 tr q' → Serves q ((e, o) :: tr) q'

/-- Byte `i` of a byte string and the big-endian 16-bit value at `i`. -/
def byteAt (w : List UInt8) (i : Nat) : Nat := (w.getD i 0).toNat
def wordAt (w : List UInt8) (i : Nat) : Nat := byteAt w i * 256 + byteAt w (i + 1)

/-- The environment is orderly at this event: bytes do not arrive while the client has a request it
has not yet sent, and no header announces a frame of 260 bytes or more. -/
def OrderlyEv (c : Client) : Ev → Prop
  | .data (.ok bs) => c.st ≠ .send ∧
      (c.st = .receive → 6 ≤ (c.pdu.content ++ bs.take c.pdu.capacity).length →
        wordAt (c.pdu.content ++ bs.take c.pdu.capacity) 4 + 6 < 260)
  | _ => True

def Orderly (c : Client) : List Ev → Prop
  | [] => True
  | e :: es => OrderlyEv c e ∧
    match c.step e with
    | .ok (c1, _) => Orderly c1 es
    | _ => True

instance (c : Client) : (e : Ev) → Decidable (OrderlyEv c e)
  | .data (.ok bs) => inferInstanceAs (Decidable (c.st ≠ .send ∧
      (c.st = .receive → 6 ≤ (c.pdu.content ++ bs.take c.pdu.capacity).length →
        wordAt (c.pdu.content ++ bs.take c.pdu.capacity) 4 + 6 < 260)))
  | .data .na | .data .error | .start _ | .req _ | .connected | .linkError | .timer _ _ => isTrue trivial

instance orderlyDecidable : (es : List Ev) → (c : Client) → Decidable (Orderly c es)
  | [], _ => isTrue trivial
  | e :: es, c =>
    match (inferInstance : Decidable (OrderlyEv c e)) with
    | isFalse h => isFalse fun x => h x.1
    | isTrue h =>
      match hs : c.step e with
      | .ok (c1, _) =>
        match orderlyDecidable es c1 with
        | isTrue h1 => isTrue ⟨h, by rw [hs]; exact h1⟩
        | isFalse h1 => isFalse fun x => h1 (by have := x.2; rw [hs] at this; exact this)
      | .throws => isTrue ⟨h, by rw [hs]; trivial⟩
      | .abort => isTrue ⟨h, by rw [hs]; trivial⟩
      | .ub => isTrue ⟨h, by rw [hs]; trivial⟩

/-- Every caller supplies as many bytes as it announces. -/
def CallersOk (es : List Ev) : Prop := ∀ e ∈ es, EvOk e

/-! ## Helper lemmas -/

theorem run_inv {c c' : Client} {es : List Ev} {tr : Trace} (hi : Inv c) (he : CallersOk es)
    (h : c.run es = .ok (c', tr)) : Inv c' := by
  induction es generalizing c tr with
  | nil => cases h; exact hi
  | cons e es ih =>
    obtain ⟨⟨c1, o⟩, h1, h⟩ := Exec.bind_eq_ok.1 h
    obtain ⟨⟨c2, os⟩, h2, h⟩ := Exec.bind_eq_ok.1 h
    cases h
    exact ih (step_spec hi (he e (by simp)) h1).1 (fun x hx => he x (by simp [hx])) h2

theorem content_received (b : PduBuf) (bs : List UInt8) :
    (b.received bs).content = b.content ++ bs := by
  apply List.ext_getElem
  · simp [PduBuf.content, PduBuf.received]
  · intro i h1 h2
    simp only [PduBuf.content, PduBuf.received, memRead, memWrite, List.getElem_map,
      List.getElem_range, List.getElem_append, List.length_map, List.length_range, Nat.zero_add]
    simp only [PduBuf.content, PduBuf.received, Uscada.MsgStorage.length_memRead] at h1
    split
    · rename_i h
      rw [dif_neg (by omega), List.getD_eq_getElem?_getD, List.getElem?_eq_getElem (by omega)]
      rfl
    · rename_i h
      rw [dif_pos (by omega)]

theorem buf_eq_content (b : PduBuf) (i : Nat) (h : i < b.len) : b.buf i = b.content.getD i 0 := by
  simp [PduBuf.content, memRead, List.getD_eq_getElem?_getD, h]

theorem wordAt_content (b : PduBuf) (i : Nat) (h : i + 1 < b.len) :
    wordAt b.content i = beAt b.buf i := by
  unfold wordAt byteAt beAt
  rw [buf_eq_content b i (by omega), buf_eq_content b (i + 1) h]

/-- A timer expiration always ends normally. -/
theorem timer_safe {c : Client} (hi : Inv c) (a b : Bool) : ∃ c' o, c.step (.timer a b) = .ok (c', o) := by
  simp only [step]
  split
  · unfold onTimer
    split
    · exact ⟨_, _, rfl⟩
    · exact ⟨_, _, rfl⟩
    · exact ⟨_, _, rfl⟩
    · obtain ⟨c', o, s, h⟩ := send_safe { c with timer := false } a hi.ok
      rw [h]
      simp only [Exec.ok_bind]
      cases s <;> exact ⟨_, _, rfl⟩
    · exact ⟨_, _, rfl⟩
    · exact ⟨_, _, rfl⟩
  · exact ⟨_, _, rfl⟩

/-- In an orderly environment every event ends normally. -/
theorem step_safe {c : Client} {e : Ev} (hi : Inv c) (he : EvOk e) (ho : OrderlyEv c e) :
    ∃ c' o, c.step e = .ok (c', o) := by
  have hC : AduStorage.capacity = 64 := rfl
  have hA : maxAduLen = 260 := rfl
  cases e with
  | start ok => simp only [step]; split <;> exact ⟨_, _, rfl⟩
  | connected => simp only [step]; split <;> exact ⟨_, _, rfl⟩
  | linkError => exact ⟨_, _, rfl⟩
  | timer a b => exact timer_safe hi a b
  | req r =>
    obtain ⟨d, h1, h2⟩ := he
    simp only [step, storePush, h1, h2]
    split
    · exact ⟨_, _, rfl⟩
    · exact ⟨_, _, rfl⟩
  | data rx =>
    simp only [step]
    have hr : c.st ≠ .init → c.st ≠ .connect → c.st ≠ .backoff → ∃ c' o s, c.receive rx = .ok (c', o, s) := by
      intro _ _ _
      unfold receive
      split
      · exact ⟨_, _, _, rfl⟩
      split
      · exact ⟨_, _, _, rfl⟩
      split
      · exact ⟨_, _, _, rfl⟩
      · exact ⟨_, _, _, rfl⟩
      · dsimp only
        split
        · exact ⟨_, _, _, rfl⟩
        · rename_i p ps hp
          apply evaluate_safe
          have hs : c.st ≠ .send := ho.1
          have hb : busy c.st := by
            apply Classical.byContradiction
            intro hb
            rw [hi.idle hb] at hp
            cases hp
          rcases hb with hb | hb
          · exact absurd hb hs
          · exact (hi.rcv hb).2.1
    unfold onData
    split
    · exact ⟨_, _, rfl⟩
    · exact ⟨_, _, rfl⟩
    · exact ⟨_, _, rfl⟩
    all_goals
      rename_i hs
      obtain ⟨c', o, s, h⟩ := hr (by simp [hs]) (by simp [hs]) (by simp [hs])
      rw [h]
      simp only [Exec.ok_bind]
      cases s <;> exact ⟨_, _, rfl⟩

/-- In an orderly environment each event treats the queue first-in first-out. -/
theorem orderly_account {c c' : Client} {rx : Rx} {o : List COut} (hi : Inv c)
    (ho : OrderlyEv c (.data rx)) (h : c.step (.data rx) = .ok (c', o)) :
    ids o ++ c'.pending.map pid = c.pending.map pid := by
  have hA : maxAduLen = 260 := rfl
  rcases (step_spec (e := .data rx) hi trivial h).2 with h1 | ⟨h1, p, ps, h2, h3, h4⟩ | ⟨h1, h2, h3⟩
  · exact h1
  · exfalso
    simp only [step, onData, h1] at h
    obtain ⟨⟨c1, o1, s⟩, hr, h⟩ := Exec.bind_eq_ok.1 h
    obtain ⟨_, e2, _, _, _, _, _, e8⟩ := receive_spec hi.cap hr
    by_cases hs : s = .done
    · subst hs
      cases h
      unfold receive at hr
      split at hr
      · cases hr; simp at h3
      split at hr
      · cases hr
      cases rx with
      | na => cases hr
      | error => cases hr
      | ok bs => exact ho.1 h1
    · have e9 := e8 hs
      subst e9
      dsimp only at h
      cases s with
      | done => exact hs rfl
      | noerror => cases h; simp at h3
      | codecError => cases h; simp at h3
      | error =>
        cases h
        have e1 := (receive_spec hi.cap hr).1
        obtain ⟨_, f2, _⟩ := fail_spec (c := c1) (by rw [e1, h1]; simp) (receive_spec hi.cap hr).2.2.2.2.1
        rw [f2, h2] at h4
        cases h4
  · obtain ⟨i1, i2, i3⟩ := hi.rcv h1
    simp only [step, onData, h1] at h
    obtain ⟨⟨c1, o1, s⟩, hr, h⟩ := Exec.bind_eq_ok.1 h
    obtain ⟨e1, e2, _, _, _, _, _, e8⟩ := receive_spec hi.cap hr
    cases s with
    | codecError => exact absurd rfl (receive_spec hi.cap hr).2.2.2.2.2.1
    | noerror =>
      have := e8 (by simp)
      subst this
      cases h
      obtain ⟨p, ps, hp⟩ := List.exists_cons_of_ne_nil i1
      rw [e2] at h3
      have := congrArg List.length h3
      rw [hp] at this
      simp at this
    | error =>
      cases h
      obtain ⟨f1, f2, f3⟩ := fail_spec (c := c1) (by rw [e1, h1]; simp) (receive_spec hi.cap hr).2.2.2.2.1
      rw [ids_append, f3, f2, e8 (by simp), e2]
      simp
    | done =>
      cases h
      exfalso
      unfold receive at hr
      rw [if_neg (by omega)] at hr
      split at hr
      · cases hr
      cases rx with
      | na => cases hr
      | error => cases hr
      | ok bs =>
        obtain ⟨p, ps, hp⟩ := List.exists_cons_of_ne_nil i1
        simp only [hp] at hr
        obtain ⟨_, _, _, _, _, _, _, _, _, k1, k2⟩ := evaluate_spec hr
        have hh := k1 rfl
        simp only [isAduHdrReceived, aduHdrLen, ge_iff_le, decide_eq_true_eq] at hh
        have hw := ho.2 h1
        rw [← content_received] at hw
        have hl : (c.pdu.received (bs.take c.pdu.capacity)).content.length
            = (c.pdu.received (bs.take c.pdu.capacity)).len := by simp [PduBuf.content]
        rw [hl] at hw
        have hw := hw hh
        rw [wordAt_content _ _ (by omega)] at hw
        have := k2 rfl (by
          unfold beAt at hw
          simpa only [isAduDataLenValid, aduPktLen, aduLenOffset, aduHdrLen, decide_eq_true_eq,
            hA, Nat.add_zero, Nat.reduceAdd] using hw)
        rw [h2] at this
        cases this

theorem serves_step {c c' : Client} {e : Ev} {o : List COut} {tr : Trace} {q' : List (Nat × Nat)}
    (hi : Inv c) (he : EvOk e) (ho : OrderlyEv c e) (h : c.step e = .ok (c', o))
    (hs : Serves (c'.pending.map pid) tr q') : Serves (c.pending.map pid) ((e, o) :: tr) q' := by
  have hacc := (step_spec hi he h).2
  cases e with
  | req r =>
    simp only [Account] at hacc
    split at hacc
    · rename_i hlt
      exact .accept (by simpa using hlt.1) hlt.2 hacc hs
    · rename_i hlt
      obtain ⟨h1, h2⟩ := hacc
      rw [h2] at hs
      exact .reject (by simpa using hlt) h1 hs
  | data rx => exact .other (by simp) (orderly_account hi ho h).symm hs
  | start b => exact .other (by simp) hacc.symm hs
  | connected => exact .other (by simp) hacc.symm hs
  | linkError => exact .other (by simp) hacc.symm hs
  | timer a b => exact .other (by simp) hacc.symm hs

theorem serves_perm {q q' : List (Nat × Nat)} {tr : Trace} (h : Serves q tr q') :
    (q ++ submitted tr).Perm (answered tr ++ q') := by
  induction h with
  | nil q => simp [submitted, answered]
  | @accept q q1 q' r o tr _ _ h1 _ ih =>
    simp only [submitted, answered]
    have : q ++ rid r :: submitted tr = ids o ++ (q1 ++ submitted tr) := by
      rw [← List.append_assoc, ← h1]; simp
    rw [this, List.append_assoc]
    exact List.Perm.append_left _ ih
  | @reject q q' r o tr _ h1 _ ih =>
    simp only [submitted, answered, h1]
    refine (List.perm_middle).trans ?_
    simpa using ih
  | @other q q1 q' e o tr h0 h1 _ ih =>
    have : submitted ((e, o) :: tr) = submitted tr := by
      cases e <;> first | rfl | exact absurd rfl (h0 _)
    rw [this]
    simp only [answered, h1, List.append_assoc]
    exact List.Perm.append_left _ ih

theorem serves_run {c : Client} {es : List Ev} (hi : Inv c) (he : CallersOk es) (ho : Orderly c es) :
    ∃ c' tr, c.run es = .ok (c', tr) ∧ tr.map (·.1) = es ∧
      Serves (c.pending.map pid) tr (c'.pending.map pid) := by
  induction es generalizing c with
  | nil => exact ⟨c, [], rfl, rfl, .nil _⟩
  | cons e es ih =>
    obtain ⟨c1, o, h1⟩ := step_safe hi (he e (by simp)) ho.1
    obtain ⟨c2, tr, h2, h3, h4⟩ := ih (step_spec hi (he e (by simp)) h1).1
      (fun x hx => he x (by simp [hx])) (by have := ho.2; rw [h1] at this; exact this)
    refine ⟨c2, (e, o) :: tr, ?_, by simp [h3], serves_step hi (he e (by simp)) ho.1 h1 h4⟩
    simp [run, h1, h2]

/-! ## C14 -/

/-- C14 (partial: in an environment where the peer does not send bytes while the client has a request
waiting to be sent, and never announces a frame of 260 bytes or more).  Whatever requests, link
events, data, send results and timer expirations occur: nothing goes out of bounds, answers come in
submission order from the front of the queue, and the answers together with the still waiting
requests are exactly the submitted requests, each as often as it was submitted. -/
theorem C14_exactly_once_partial (m : Mem) (es : List Ev) (he : CallersOk es)
    (ho : Orderly (create m) es) :
    ∃ c tr, (create m).run es = .ok (c, tr) ∧ tr.map (·.1) = es ∧
      Serves [] tr (c.pending.map pid) ∧
      (submitted tr).Perm (answered tr ++ c.pending.map pid) := by
  obtain ⟨c, tr, h1, h2, h3⟩ := serves_run (inv_create m) he ho
  exact ⟨c, tr, h1, h2, h3, by simpa [create] using serves_perm h3⟩

theorem mem_answered_of_run {c c' : Client} {es : List Ev} {tr : Trace} (hi : Inv c)
    (he : CallersOk es) (h : c.run es = .ok (c', tr)) :
    ∀ x, x ∈ answered tr ∨ x ∈ c'.pending.map pid → x ∈ c.pending.map pid ∨ x ∈ submitted tr := by
  induction es generalizing c tr with
  | nil =>
    cases h
    intro x hx
    simp only [answered, List.not_mem_nil, false_or] at hx
    exact Or.inl hx
  | cons e es ih =>
    obtain ⟨⟨c1, o⟩, h1, h⟩ := Exec.bind_eq_ok.1 h
    obtain ⟨⟨c2, os⟩, h2, h⟩ := Exec.bind_eq_ok.1 h
    cases h
    obtain ⟨hi1, hacc⟩ := step_spec hi (he e (by simp)) h1
    have ih := ih hi1 (fun x hx => he x (by simp [hx])) h2
    intro x hx
    simp only [answered, List.mem_append] at hx
    have hsub : submitted os ⊆ submitted ((e, o) :: os) := by
      intro y hy; cases e <;> simp [submitted, hy]
    have hx' : x ∈ ids o ∨ x ∈ c1.pending.map pid ∨ x ∈ submitted os := by
      rcases hx with (hx | hx) | hx
      · exact Or.inl hx
      · exact Or.inr (ih x (Or.inl hx))
      · exact Or.inr (ih x (Or.inr hx))
    rw [← or_assoc] at hx'
    rcases hx'.symm with hx' | hx'
    · exact Or.inr (hsub hx')
    have hgen : ids o ++ c1.pending.map pid = c.pending.map pid → x ∈ c.pending.map pid := by
      intro hh; rw [← hh]; simpa using hx'
    cases e with
    | req r =>
      simp only [Account] at hacc
      split at hacc
      · have : x ∈ c.pending.map pid ++ [(r.clientId, r.transactId)] := by
          rw [hacc]; simpa using hx'
        rcases List.mem_append.1 this with h | h
        · exact Or.inl h
        · right; simp only [List.mem_singleton] at h; simp [submitted, rid, h]
      · obtain ⟨h3, h4⟩ := hacc
        rcases hx' with h | h
        · rw [h3] at h; right; simp only [List.mem_singleton] at h; simp [submitted, rid, h]
        · rw [h4] at h; exact Or.inl h
    | data rx =>
      simp only [Account] at hacc
      left
      rcases hacc with hacc | ⟨_, p, ps, h3, h4, h5⟩ | ⟨_, h3, h4⟩
      · exact hgen hacc
      · rcases hx' with h | h
        · rw [h4] at h; rw [h3]; simp at h; simp [h]
        · rw [h5] at h; exact h
      · rcases hx' with h | h
        · rw [h3] at h; simp at h
        · rw [h4] at h
          obtain ⟨p, hp, rfl⟩ := List.mem_map.1 h
          exact List.mem_map.2 ⟨p, List.mem_of_mem_tail hp, rfl⟩
    | start b => exact Or.inl (hgen hacc)
    | connected => exact Or.inl (hgen hacc)
    | linkError => exact Or.inl (hgen hacc)
    | timer a b => exact Or.inl (hgen hacc)

/-- C14 (no restriction on the peer).  No response is ever produced for a request that was not
submitted, and no request is waiting that was not submitted. -/
theorem C14_only_submitted (m : Mem) (es : List Ev) (he : CallersOk es) (c : Client) (tr : Trace)
    (h : (create m).run es = .ok (c, tr)) :
    ∀ x, x ∈ answered tr ∨ x ∈ c.pending.map pid → x ∈ submitted tr := by
  intro x hx
  have := mem_answered_of_run (inv_create m) he h x hx
  simpa [create] using this

/-- A sample request: read two holding registers from slave 9. -/
def sampleCall (t : Nat) : CallerReq :=
  { clientId := 1, transactId := t, func := fReadHolding, addr := 9, startItem := 7, numItems := 2,
    numBytes := 0, data := some [] }

/-- The matching answer. -/
def sampleAnswer (t : UInt8) : List UInt8 := [0, t, 0, 0, 0, 7, 9, 3, 4, 1, 2, 3, 4]

/-- Responses of a history starting from a client whose buffer holds zeros. -/
def responses (es : List Ev) : Option (List CRsp) :=
  match (create fun _ => 0).run es with
  | .ok (_, tr) => some (tr.flatMap fun x => x.2.filterMap fun
      | .rsp r => some r
      | .frame _ => none)
  | _ => none

/-- Number of requests still waiting after a history. -/
def waiting (es : List Ev) : Option Nat :=
  match (create fun _ => 0).run es with
  | .ok (c, _) => some c.pending.length
  | _ => none

def connectEvs : List Ev := [.start true, .connected]

/-- Two requests, the first answered by the peer, the second by a timeout. -/
def sampleHistory : List Ev :=
  connectEvs ++ [.req (sampleCall 5), .req (sampleCall 6), .timer true true,
    .data (.ok (sampleAnswer 5)), .timer true true, .timer true true]

/-- Non-vacuity: the sample history is orderly and gives a success and an error. -/
example : CallersOk sampleHistory ∧ Orderly (create fun _ => 0) sampleHistory ∧
    responses sampleHistory = some
      [{ clientId := 1, transactId := 5, success := true, error := 0, data := [2, 1, 4, 3] },
       { clientId := 1, transactId := 6, success := false, error := 0, data := [] }] ∧
    waiting sampleHistory = some 0 := by
  refine ⟨?_, by decide +kernel, by decide +kernel, by decide +kernel⟩
  intro e he
  simp only [sampleHistory, connectEvs, List.cons_append, List.nil_append, List.mem_cons,
    List.not_mem_nil, or_false] at he
  rcases he with rfl | rfl | rfl | rfl | rfl | rfl | rfl | rfl <;> simp [EvOk, CallerOk, sampleCall]

/-- Violation of C14: bytes that arrive before the request was sent are taken as its answer, the
request stays in the queue and is answered a second time. -/
theorem C14_duplicate_answer_violated :
    responses (connectEvs ++ [.req (sampleCall 5), .data (.ok (sampleAnswer 5)), .timer true true,
      .timer true true]) = some
      [{ clientId := 1, transactId := 5, success := true, error := 0, data := [2, 1, 4, 3] },
       { clientId := 1, transactId := 5, success := false, error := 0, data := [] }] := by
  decide +kernel

/-- Violation of C14: a header announcing 254 or more bytes makes the client drop the request without
any answer. -/
theorem C14_lost_answer_violated :
    responses (connectEvs ++ [.req (sampleCall 5), .timer true true,
      .data (.ok [0, 5, 0, 0, 0, 254])]) = some [] ∧
    waiting (connectEvs ++ [.req (sampleCall 5), .timer true true,
      .data (.ok [0, 5, 0, 0, 0, 254])]) = some 0 := by
  decide +kernel

/-! ## C15 -/

/-- The steps still needed to answer everything by timeouts alone. -/
def remaining (c : Client) : Nat := 2 * c.pending.length - (if c.st = .receive then 1 else 0)

/-- States in which the client is connected. -/
def isConnected (s : CSt) : Prop := s = .connected ∨ s = .send ∨ s = .receive

/-- C15.  In every state reached by any history: a client that owes an answer is in a connected state
with its timer armed; a client that is not connected owes nothing; and whenever it owes answers, the
next timer expiration, whatever the system calls it makes return, ends normally and brings it
strictly closer to having answered everything. -/
theorem C15_waiting_has_timer (m : Mem) (es : List Ev) (he : CallersOk es) (c : Client) (tr : Trace)
    (h : (create m).run es = .ok (c, tr)) :
    (c.pending ≠ [] → isConnected c.st ∧ c.timer = true) ∧
    (¬ isConnected c.st → c.pending = []) ∧
    (c.pending ≠ [] → ∀ sendOk connectOk, ∃ c' o, c.step (.timer sendOk connectOk) = .ok (c', o) ∧
      remaining c' < remaining c ∧ ids o ++ c'.pending.map pid = c.pending.map pid) := by
  have hi := run_inv (inv_create m) he h
  have hb : c.pending ≠ [] → busy c.st := by
    intro hp
    apply Classical.byContradiction
    intro hb
    exact hp (hi.idle hb)
  refine ⟨?_, ?_, ?_⟩
  · intro hp
    refine ⟨?_, hi.armed (hb hp)⟩
    rcases hb hp with h | h <;> simp [isConnected, h]
  · intro hn
    apply hi.idle
    intro hb
    apply hn
    rcases hb with h | h <;> simp [isConnected, h]
  · intro hp sOk cOk
    obtain ⟨c', o, hs⟩ := timer_safe hi sOk cOk
    refine ⟨c', o, hs, ?_, (step_spec (e := .timer sOk cOk) hi trivial hs).2⟩
    have htm := hi.armed (hb hp)
    simp only [step, htm, if_true] at hs
    have hpos : 0 < c.pending.length := List.length_pos_iff.2 hp
    rcases hb hp with hst | hst
    · simp only [onTimer, hst] at hs
      obtain ⟨⟨c1, o1, s⟩, h1, hs⟩ := Exec.bind_eq_ok.1 hs
      obtain ⟨e1, _, _, e4, e5⟩ := send_spec h1
      simp only [] at e1 e5
      rcases e5 with ⟨e5, _⟩ | ⟨p, ps, e5, ⟨rfl, _, e7⟩ | ⟨rfl, _, e7⟩ | ⟨rfl, _, e7⟩⟩
      · exact absurd e5 hp
      · cases hs
        simp only [remaining, e7, e1, hst, e5]
        simp
      · cases hs
        simp only [remaining, transit, enter, exit, e1, hst, e5, e7]
        simp
        omega
      · cases hs
        obtain ⟨_, f2, _⟩ := fail_spec (c := c1) (by simp [e1, hst]) (by rw [e4]; exact hi.cap)
        simp only [remaining, f2, hst]
        simp
        omega
    · simp only [onTimer, hst] at hs
      cases hs
      obtain ⟨_, t2, t3⟩ := transit_send (c := { st := c.st, pending := c.pending, pdu := c.pdu, timer := false, opened := c.opened })
        (by simp [hst]) hi.ok hi.size hi.cap
      simp only [hst] at t2 t3
      simp only [remaining, hst, t2, t3]
      simp
      omega

theorem timers_answer {c : Client} (hi : Inv c) (ts : List (Bool × Bool)) :
    ∃ c' tr, c.run (ts.map fun t => .timer t.1 t.2) = .ok (c', tr) ∧ Inv c' ∧
      answered tr ++ c'.pending.map pid = c.pending.map pid := by
  induction ts generalizing c with
  | nil => exact ⟨c, [], rfl, hi, by simp [answered]⟩
  | cons t ts ih =>
    obtain ⟨c1, o, h1⟩ := timer_safe hi t.1 t.2
    obtain ⟨hi1, hacc⟩ := step_spec (e := .timer t.1 t.2) hi trivial h1
    obtain ⟨c2, tr, h2, h3, h4⟩ := ih hi1
    refine ⟨c2, (.timer t.1 t.2, o) :: tr, by simp [run, h1, h2], h3, ?_⟩
    simp only [answered, List.append_assoc, h4]
    exact hacc

theorem run_append {c : Client} {es es' : List Ev} {c1 : Client} {tr : Trace}
    (h : c.run es = .ok (c1, tr)) : c.run (es ++ es') =
      (c1.run es' >>= fun x => .ok (x.1, tr ++ x.2)) := by
  induction es generalizing c tr with
  | nil =>
    cases h
    simp only [List.nil_append]
    cases c1.run es' <;> rfl
  | cons e es ih =>
    obtain ⟨⟨c2, o⟩, h1, h⟩ := Exec.bind_eq_ok.1 h
    obtain ⟨⟨c3, os⟩, h2, h⟩ := Exec.bind_eq_ok.1 h
    cases h
    simp only [List.cons_append, run, h1, Exec.ok_bind]
    rw [ih h2]
    cases c1.run es' <;> rfl

/-- C15 (consequence).  From every state reached by any history, as many timer expirations as twice
the number of waiting requests answer all of them, each exactly once and in order, whatever the
system calls return. -/
theorem C15_timers_answer_everything (m : Mem) (es : List Ev) (he : CallersOk es) (c : Client)
    (tr : Trace) (h : (create m).run es = .ok (c, tr)) (ts : List (Bool × Bool))
    (hts : 2 * c.pending.length ≤ ts.length) :
    ∃ c' tr', c.run (ts.map fun t => .timer t.1 t.2) = .ok (c', tr') ∧ c'.pending = [] ∧
      answered tr' = c.pending.map pid := by
  have key : ∀ (ts : List (Bool × Bool)) (es : List Ev) (c : Client) (tr : Trace), CallersOk es →
      (create m).run es = .ok (c, tr) → remaining c ≤ ts.length →
      ∃ c' tr', c.run (ts.map fun t => .timer t.1 t.2) = .ok (c', tr') ∧ c'.pending = [] := by
    intro ts
    induction ts with
    | nil =>
      intro es c tr he h hr
      have hi := run_inv (inv_create m) he h
      refine ⟨c, [], rfl, ?_⟩
      simp only [remaining, List.length_nil] at hr
      have : c.pending.length = 0 := by split at hr <;> omega
      exact List.length_eq_zero_iff.1 this
    | cons t ts ih =>
      intro es c tr he h hr
      have hi := run_inv (inv_create m) he h
      obtain ⟨c1, o, h1⟩ := timer_safe hi t.1 t.2
      have hrun : (create m).run (es ++ [.timer t.1 t.2]) = .ok (c1, tr ++ [(.timer t.1 t.2, o)]) := by
        rw [run_append h]; simp [run, h1]
      have hr1 : remaining c1 ≤ ts.length := by
        by_cases hp : c.pending = []
        · have hacc := (step_spec (e := .timer t.1 t.2) hi trivial h1).2
          simp only [Account, hp, List.map_nil, List.append_eq_nil_iff, List.map_eq_nil_iff] at hacc
          simp [remaining, hacc.2]
        · obtain ⟨c1', o', h1', hlt, _⟩ := (C15_waiting_has_timer m es he c tr h).2.2 hp t.1 t.2
          rw [h1] at h1'
          cases h1'
          simp only [List.length_cons] at hr
          omega
      obtain ⟨c2, tr2, h2, h3⟩ := ih (es ++ [.timer t.1 t.2]) c1 _ (by
        intro e hm
        rcases List.mem_append.1 hm with hm | hm
        · exact he e hm
        · simp at hm; subst hm; trivial) hrun hr1
      exact ⟨c2, (.timer t.1 t.2, o) :: tr2, by simp [run, h1, h2], h3⟩
  obtain ⟨c', tr', h1, h2⟩ := key ts es c tr he h (by unfold remaining; omega)
  obtain ⟨c'', tr'', h3, _, h4⟩ := timers_answer (run_inv (inv_create m) he h) ts
  rw [h1] at h3
  cases h3
  refine ⟨c', tr', h1, h2, ?_⟩
  rw [h2] at h4
  simpa using h4

/-- Non-vacuity: after two requests both are waiting; four expirations answer them. -/
example : waiting (connectEvs ++ [.req (sampleCall 5), .req (sampleCall 6)]) = some 2 ∧
    waiting (connectEvs ++ [.req (sampleCall 5), .req (sampleCall 6), .timer true true,
      .timer true true, .timer true true]) = some 1 ∧
    waiting (connectEvs ++ [.req (sampleCall 5), .req (sampleCall 6), .timer true true,
      .timer true true, .timer true true, .timer true true]) = some 0 := by
  decide +kernel

/-! ## C16 -/

def isFrame : COut → Bool
  | .frame _ => true
  | .rsp _ => false

/-- Bytes that an event adds to those already received.  A single `read(2)` takes no more than the free
part of the 512-byte buffer. -/
def addRx (acc : List UInt8) : Ev → List UInt8
  | .data (.ok bs) => acc ++ bs.take (512 - acc.length)
  | _ => acc

/-- The bytes received since the last frame was sent, read from a history (oldest event first). -/
def sinceFrame (acc : List UInt8) : Trace → List UInt8
  | [] => acc
  | (e, o) :: tr => sinceFrame (if o.any isFrame then [] else addRx acc e) tr

/-- Register values in the byte order used in messages: the wire order swapped in pairs. -/
def swapPairs : List UInt8 → List UInt8
  | a :: b :: l => b :: a :: swapPairs l
  | _ => []

/-- The data carried by a response frame. -/
def frameData (w : List UInt8) : List UInt8 :=
  if byteAt w 7 = 3 ∨ byteAt w 7 = 4 then swapPairs (w.drop 9)
  else if byteAt w 7 = 5 ∨ byteAt w 7 = 6 then swapPairs (w.drop 10)
  else []

/-- A complete response frame for a request: right length, protocol id 0, the transaction id, address
and function of the request. -/
def AnswerFrame (w : List UInt8) (p : Pending) : Prop :=
  9 ≤ w.length ∧ w.length < 260 ∧ wordAt w 4 + 6 = w.length ∧ wordAt w 2 = 0 ∧
  wordAt w 0 = p.transactId ∧ byteAt w 6 = p.addr ∧ byteAt w 7 = p.func

theorem regBytes_swap (m : Mem) (p n : Nat) : regBytes m p n = swapPairs (memRead m p (2 * n)) := by
  induction n generalizing p with
  | zero => rfl
  | succ n ih =>
    have : memRead m p (2 * (n + 1)) = m p :: m (p + 1) :: memRead m (p + 2) (2 * n) := by
      have e : 2 * (n + 1) = 2 * n + 1 + 1 := by omega
      rw [e]
      unfold memRead
      rw [List.range_succ_eq_map, List.map_cons, List.map_map, List.range_succ_eq_map, List.map_cons,
        List.map_map]
      simp only [Nat.add_zero, Function.comp_apply, List.cons.injEq, true_and]
      apply List.map_congr_left
      intro i _
      simp only [Function.comp_apply]
      congr 1
      omega
    rw [this]
    simp only [regBytes, swapPairs, ih]

theorem drop_content (b : PduBuf) (k : Nat) (h : k ≤ b.len) :
    b.content.drop k = memRead b.buf k (b.len - k) := by
  apply List.ext_getElem
  · simp [PduBuf.content]
  · intro i h1 h2
    simp [PduBuf.content, memRead]

/-- What a successful answer computed by `evaluate` rests on. -/
theorem evaluate_success {c c' : Client} {p : Pending} {o : List COut} {s : Status} {r : CRsp}
    (hpos : c.pdu.pos = 0) (h : evaluate c p = .ok (c', o, s)) (hr : .rsp r ∈ o) (hs : r.success = true) :
    r.clientId = p.clientId ∧ r.transactId = p.transactId ∧
    ((AnswerFrame c.pdu.content p ∧ r.error = 0 ∧ r.data = frameData c.pdu.content) ∨
     (r.data = [] ∧ wordAt c.pdu.content 4 + 6 = c.pdu.content.length ∧
      wordAt c.pdu.content 2 = 0 ∧ wordAt c.pdu.content 0 = p.transactId ∧
      (9 ≤ c.pdu.content.length → byteAt c.pdu.content 6 = p.addr ∧
        byteAt c.pdu.content 7 = 0x8f ∧ r.error = byteAt c.pdu.content 8))) := by
  have hA : maxAduLen = 260 := rfl
  have hE : fError = 143 := rfl
  unfold evaluate evaluateIn at h
  by_cases h1 : isAduHdrReceived c.pdu = false
  · rw [if_pos h1] at h; cases h; simp at hr
  rw [if_neg h1] at h
  by_cases h2 : isAduDataLenValid c.pdu = false
  · rw [if_pos h2] at h; cases h; simp at hr
  rw [if_neg h2] at h
  by_cases h3 : isAduReceived c.pdu = false
  · rw [if_pos h3] at h; cases h; simp at hr
  rw [if_neg h3] at h
  by_cases h4 : isAduValid c.pdu = false
  · rw [if_pos h4] at h; cases h
    simp only [List.mem_singleton, rspError, COut.rsp.injEq] at hr
    subst hr; cases hs
  rw [if_neg h4, decodeRsp_eq c.pdu blankRsp (by omega), hpos] at h
  simp only [Exec.ok_bind, Exec.pure_eq] at h
  have h6 : 6 ≤ c.pdu.len := by
    simpa [isAduHdrReceived, aduHdrLen] using h1
  have hv : c.pdu.len < 260 ∧ beAt c.pdu.buf 4 + 6 = c.pdu.len := by
    simpa [isAduValid, aduHdrLen, hA, aduPktLen, aduLenOffset, beAt] using h4
  have hlen : c.pdu.content.length = c.pdu.len := by simp [PduBuf.content]
  have w0 : wordAt c.pdu.content 0 = beAt c.pdu.buf 0 := wordAt_content _ _ (by omega)
  have w2 : wordAt c.pdu.content 2 = beAt c.pdu.buf 2 := wordAt_content _ _ (by omega)
  have w4 : wordAt c.pdu.content 4 = beAt c.pdu.buf 4 := wordAt_content _ _ (by omega)
  have b6 : 9 ≤ c.pdu.len → byteAt c.pdu.content 6 = (c.pdu.buf 6).toNat := by
    intro h; unfold byteAt; rw [buf_eq_content _ _ (by omega)]
  have b7 : 9 ≤ c.pdu.len → byteAt c.pdu.content 7 = (c.pdu.buf 7).toNat := by
    intro h; unfold byteAt; rw [buf_eq_content _ _ (by omega)]
  have b8 : 9 ≤ c.pdu.len → byteAt c.pdu.content 8 = (c.pdu.buf 8).toNat := by
    intro h; unfold byteAt; rw [buf_eq_content _ _ (by omega)]
  have bad : ∀ {x : Client}, Exec.ok (x, [rspError p.clientId p.transactId], Status.done) = .ok (c', o, s) → False := by
    intro x hx
    cases hx
    simp only [List.mem_singleton, rspError, COut.rsp.injEq] at hr
    subst hr; cases hs
  by_cases k1 : (parseRsp c.pdu.buf 0 blankRsp).2.2 = false
  · rw [if_pos k1] at h; exact (bad h).elim
  rw [if_neg k1] at h
  by_cases k2 : p.transactId ≠ (parseRsp c.pdu.buf 0 blankRsp).2.1.transactId
  · rw [if_pos k2] at h; exact (bad h).elim
  rw [if_neg k2] at h
  by_cases k3 : p.addr ≠ (parseRsp c.pdu.buf 0 blankRsp).2.1.addr
  · rw [if_pos k3] at h; exact (bad h).elim
  rw [if_neg k3] at h
  simp only [ne_eq, Decidable.not_not] at k2 k3
  -- what `parseRsp` yields
  have hp : (parseRsp c.pdu.buf 0 blankRsp).2.1.transactId = beAt c.pdu.buf 0 := by
    unfold parseRsp; simp only [Nat.zero_add]; repeat' split
    all_goals rfl
  have hproto : beAt c.pdu.buf 2 = 0 := by
    apply Classical.byContradiction
    intro hn
    apply k1
    unfold parseRsp
    simp only [Nat.zero_add]
    rw [if_pos hn]
  have hpa : (parseRsp c.pdu.buf 0 blankRsp).2.1.addr = (c.pdu.buf 6).toNat ∧
      (parseRsp c.pdu.buf 0 blankRsp).2.1.func = (c.pdu.buf 7).toNat := by
    unfold parseRsp
    simp only [Nat.zero_add]
    rw [if_neg (by omega)]
    repeat' split
    all_goals exact ⟨rfl, rfl⟩
  by_cases k4 : (parseRsp c.pdu.buf 0 blankRsp).2.1.func = fError
  · rw [if_pos k4] at h
    cases h
    simp only [List.mem_singleton, rspModbusError, COut.rsp.injEq] at hr
    subst hr
    refine ⟨rfl, rfl, Or.inr ⟨rfl, by rw [w4, hlen, hv.2], by rw [w2, hproto], by rw [w0, k2, hp], ?_⟩⟩
    intro h9
    rw [hlen] at h9
    refine ⟨by rw [b6 h9, k3, hpa.1], by rw [b7 h9, ← hpa.2, k4, hE], ?_⟩
    rw [b8 h9]
    have k4' := hpa.2.symm.trans k4
    unfold parseRsp
    simp only [Nat.zero_add]
    rw [if_neg (by omega), if_pos k4']
  rw [if_neg k4] at h
  by_cases k5 : p.func ≠ (parseRsp c.pdu.buf 0 blankRsp).2.1.func
  · rw [if_pos k5] at h; exact (bad h).elim
  rw [if_neg k5] at h
  simp only [ne_eq, Decidable.not_not] at k5
  cases h
  simp only [List.mem_singleton, rspSuccess, COut.rsp.injEq] at hr
  subst hr
  refine ⟨rfl, k2.symm, Or.inl ?_⟩
  have k4' : ¬ (c.pdu.buf 7).toNat = fError := by rw [← hpa.2]; exact k4
  have main : 9 ≤ c.pdu.len ∧ memRead (parseRsp c.pdu.buf 0 blankRsp).2.1.data 0
      (parseRsp c.pdu.buf 0 blankRsp).2.1.numBytes =
      (if (c.pdu.buf 7).toNat = 3 ∨ (c.pdu.buf 7).toNat = 4 then swapPairs (c.pdu.content.drop 9)
       else if (c.pdu.buf 7).toNat = 5 ∨ (c.pdu.buf 7).toNat = 6 then swapPairs (c.pdu.content.drop 10)
       else []) := by
    have k1' := k1
    unfold parseRsp at k1' ⊢
    simp only [Nat.zero_add] at k1' ⊢
    rw [if_neg (by omega : ¬ beAt c.pdu.buf 2 ≠ 0), if_neg k4'] at k1' ⊢
    by_cases f1 : isRegFunc (c.pdu.buf 7).toNat
    · rw [if_pos f1] at k1' ⊢
      have f1' : (c.pdu.buf 7).toNat = 3 ∨ (c.pdu.buf 7).toNat = 4 := f1
      by_cases g1 : beAt c.pdu.buf 4 ≠ (c.pdu.buf 8).toNat + 3
      · rw [if_pos g1] at k1'; exact absurd rfl k1'
      rw [if_neg g1] at k1' ⊢
      by_cases g2 : (c.pdu.buf 8).toNat % 2 ≠ 0
      · rw [if_pos g2] at k1'; exact absurd rfl k1'
      rw [if_neg g2, if_pos f1']
      simp only [ne_eq, Decidable.not_not] at g1 g2
      refine ⟨by omega, ?_⟩
      have hnb : (c.pdu.buf 8).toNat = 2 * ((c.pdu.buf 8).toNat / 2) := by omega
      have hsz : c.pdu.len - 9 = 2 * ((c.pdu.buf 8).toNat / 2) := by omega
      rw [drop_content _ _ (by omega), hsz, ← regBytes_swap]
      have hl : (regBytes c.pdu.buf 9 ((c.pdu.buf 8).toNat / 2)).length = (c.pdu.buf 8).toNat := by simp; omega
      have := MsgStorage.memRead_memWrite_same blankRsp.data 0 (regBytes c.pdu.buf 9 ((c.pdu.buf 8).toNat / 2))
      rw [hl] at this
      exact this
    · rw [if_neg f1] at k1' ⊢
      have f1' : ¬ ((c.pdu.buf 7).toNat = 3 ∨ (c.pdu.buf 7).toNat = 4) := f1
      rw [if_neg f1']
      by_cases f2 : isSingleFunc (c.pdu.buf 7).toNat
      · rw [if_pos f2] at k1' ⊢
        have f2' : (c.pdu.buf 7).toNat = 5 ∨ (c.pdu.buf 7).toNat = 6 := f2
        by_cases g1 : beAt c.pdu.buf 4 ≠ 6
        · rw [if_pos g1] at k1'; exact absurd rfl k1'
        rw [if_neg g1, if_pos f2']
        simp only [ne_eq, Decidable.not_not] at g1
        refine ⟨by omega, ?_⟩
        have hsz : c.pdu.len - 10 = 2 * 1 := by omega
        rw [drop_content _ _ (by omega), hsz, ← regBytes_swap]
        have := MsgStorage.memRead_memWrite_same blankRsp.data 0 (regBytes c.pdu.buf 10 1)
        simpa using this
      · rw [if_neg f2] at k1' ⊢
        have f2' : ¬ ((c.pdu.buf 7).toNat = 5 ∨ (c.pdu.buf 7).toNat = 6) := f2
        rw [if_neg f2']
        by_cases f3 : (c.pdu.buf 7).toNat = fPresetMulti
        · rw [if_pos f3] at k1' ⊢
          by_cases g1 : beAt c.pdu.buf 4 ≠ 6
          · rw [if_pos g1] at k1'; exact absurd rfl k1'
          rw [if_neg g1]
          simp only [ne_eq, Decidable.not_not] at g1
          exact ⟨by omega, rfl⟩
        · rw [if_neg f3] at k1'; exact absurd rfl k1'
  obtain ⟨h9, hd⟩ := main
  refine ⟨⟨by rw [hlen]; exact h9, by rw [hlen]; exact hv.1, by rw [w4, hlen, hv.2], by rw [w2, hproto],
    by rw [w0, k2, hp], by rw [b6 h9, k3, hpa.1], by rw [b7 h9, k5, hpa.2]⟩, rfl, ?_⟩
  unfold frameData
  rw [b7 h9]
  exact hd

theorem mem_fail {c : Client} {r : CRsp} (h : .rsp r ∈ c.fail.2) : r.success = false := by
  unfold fail drain at h
  simp only [List.mem_map] at h
  obtain ⟨p, _, h⟩ := h
  unfold rspError at h
  cases h
  rfl

/-- A success answer in the receive state, with the buffer content. -/
theorem receive_success {c c' : Client} {rx : Rx} {o : List COut} {r : CRsp} (hi : Inv c)
    (hst : c.st = .receive) (h : c.step (.data rx) = .ok (c', o)) (hr : .rsp r ∈ o)
    (hs : r.success = true) :
    ∃ bs p ps, rx = .ok bs ∧ c.pending = p :: ps ∧
      r.clientId = p.clientId ∧ r.transactId = p.transactId ∧
      (let w := c.pdu.content ++ bs.take (512 - c.pdu.content.length)
       (AnswerFrame w p ∧ r.error = 0 ∧ r.data = frameData w) ∨
       (r.data = [] ∧ wordAt w 4 + 6 = w.length ∧ wordAt w 2 = 0 ∧ wordAt w 0 = p.transactId ∧
        (9 ≤ w.length → byteAt w 6 = p.addr ∧ byteAt w 7 = 0x8f ∧ r.error = byteAt w 8))) := by
  have hA : maxAduLen = 260 := rfl
  obtain ⟨i1, i2, i3⟩ := hi.rcv hst
  simp only [step, onData, hst] at h
  obtain ⟨⟨c1, o1, s⟩, h1, h⟩ := Exec.bind_eq_ok.1 h
  have ho1 : .rsp r ∈ o1 := by
    dsimp only at h
    cases s with
    | error =>
      cases h
      rcases List.mem_append.1 hr with h | h
      · exact h
      · have := mem_fail h; rw [hs] at this; cases this
    | done => cases h; exact hr
    | noerror => cases h; exact hr
    | codecError => cases h; exact hr
  unfold receive at h1
  rw [if_neg (by omega)] at h1
  split at h1
  · cases h1; simp at ho1
  cases rx with
  | na => cases h1; simp at ho1
  | error => cases h1; simp at ho1
  | ok bs =>
    obtain ⟨p, ps, hp⟩ := List.exists_cons_of_ne_nil i1
    simp only [hp] at h1
    obtain ⟨e1, e2, e3⟩ := evaluate_success (by simpa [PduBuf.received] using i2) h1 ho1 hs
    refine ⟨bs, p, ps, rfl, hp, e1, e2, ?_⟩
    rw [content_received] at e3
    have hl : c.pdu.content.length = c.pdu.len := by simp [PduBuf.content]
    have hc : c.pdu.capacity = 512 - c.pdu.content.length := by rw [hl]; rfl
    rw [hc] at e3
    exact e3

/-- In the receive state the buffer holds the bytes received since the last frame was sent. -/
def RxInv (c : Client) (acc : List UInt8) : Prop := c.st = .receive → c.pdu.content = acc

theorem rx_step {c c' : Client} {e : Ev} {o : List COut} {acc : List UInt8} (hi : Inv c) (hx : RxInv c acc)
    (h : c.step e = .ok (c', o)) (hst : c'.st = .receive) :
    (o.any isFrame = true ∧ c'.pdu.content = []) ∨
    (o.any isFrame = false ∧ c'.pdu.content = addRx acc e) := by
  have hA : maxAduLen = 260 := rfl
  cases e with
  | start b =>
    simp only [step] at h
    split at h
    · cases h; simp_all [transit, enter, exit]
    · cases h; exact Or.inr ⟨rfl, hx hst⟩
  | connected =>
    simp only [step] at h
    split at h
    · simp only [onConnected] at h
      cases hc : c.st <;> simp only [hc] at h <;> cases h <;> simp_all [RxInv, transit, enter, exit, addRx]
    · simp only [onError] at h
      cases hc : c.st <;> simp only [hc] at h <;> cases h <;> simp_all [RxInv, transit, enter, exit, addRx]
  | linkError =>
    simp only [step, onError] at h
    cases hc : c.st <;> simp only [hc] at h <;> cases h <;> simp_all [RxInv, transit, enter, exit, addRx]
  | req r =>
    simp only [step] at h
    obtain ⟨⟨l, ok⟩, h1, h⟩ := Exec.bind_eq_ok.1 h
    dsimp only at h
    split at h
    · unfold onReq at h
      cases hc : c.st <;> simp only [hc, Exec.pure_eq] at h <;> cases h <;>
        simp_all [RxInv, drain, transit, enter, exit, addRx]
    · cases h
      exact Or.inr ⟨rfl, hx hst⟩
  | timer a b =>
    simp only [step] at h
    split at h
    · unfold onTimer at h
      cases hc : c.st <;> simp only [hc] at h
      case send =>
        obtain ⟨⟨c1, o1, s⟩, h1, h⟩ := Exec.bind_eq_ok.1 h
        obtain ⟨e1, _, _, e4, e5⟩ := send_spec h1
        simp only [] at e1
        cases s with
        | done =>
          cases h
          left
          refine ⟨?_, ?_⟩
          · rw [send_body] at h1
            split at h1
            · cases h1
            · obtain ⟨⟨b1, ok⟩, _, h1⟩ := Exec.bind_eq_ok.1 h1
              dsimp only [Exec.pure_eq] at h1
              split at h1
              · cases h1
              split at h1
              · cases h1; rfl
              · cases h1
          · simp [transit, e1, enter, PduBuf.content, PduBuf.reset, memRead]
        | noerror => cases h; simp [transit, e1, enter, exit] at hst
        | codecError => cases h; simp [e1] at hst
        | error => cases h; simp [fail, drain, transit, e1, enter, exit] at hst
      all_goals
        cases h
        simp_all [transit, enter, exit]
    · cases h; exact Or.inr ⟨rfl, hx hst⟩
  | data rx =>
    simp only [step, onData] at h
    have hrecv : ∀ c1 o1 s, c.receive rx = .ok (c1, o1, s) → c1.st = c.st :=
      fun c1 o1 s h1 => (receive_spec hi.cap h1).1
    cases hc : c.st <;> simp only [hc] at h
    case receive =>
      obtain ⟨⟨c1, o1, s⟩, h1, h⟩ := Exec.bind_eq_ok.1 h
      obtain ⟨e1, _, _, _, _, e6, _, e8⟩ := receive_spec hi.cap h1
      rw [hc] at e1
      cases s with
      | done => cases h; simp [transit, e1, enter, exit] at hst
      | codecError => exact absurd rfl e6
      | error => cases h; simp [fail, drain, transit, e1, enter, exit] at hst
      | noerror =>
        cases h
        have := e8 (by simp)
        subst this
        refine Or.inr ⟨rfl, ?_⟩
        obtain ⟨i1, i2, i3⟩ := hi.rcv hc
        unfold receive at h1
        rw [if_neg (by omega)] at h1
        split at h1
        · cases h1
        cases rx with
        | na => cases h1; exact hx hc
        | error => cases h1
        | ok bs =>
          obtain ⟨p, ps, hp⟩ := List.exists_cons_of_ne_nil i1
          simp only [hp] at h1
          obtain ⟨_, _, _, _, _, _, k, _⟩ := evaluate_spec h1
          rw [(k rfl).1]
          dsimp only
          rw [content_received, hx hc]
          have hl : c.pdu.content.length = c.pdu.len := by simp [PduBuf.content]
          have : c.pdu.capacity = 512 - acc.length := by rw [← hx hc, hl]; rfl
          rw [this]
          rfl
    case init => cases h; rw [hc] at hst; cases hst
    case connect => cases h; rw [hc] at hst; cases hst
    case backoff => cases h; rw [hc] at hst; cases hst
    all_goals
      obtain ⟨⟨c1, o1, s⟩, h1, h⟩ := Exec.bind_eq_ok.1 h
      have e1 := hrecv _ _ _ h1
      rw [hc] at e1
      cases s <;> cases h <;> first
        | (exfalso; rw [e1] at hst; cases hst)
        | (exfalso; simp [fail, drain, transit, e1, enter, exit] at hst)

theorem rx_run {c c' : Client} {es : List Ev} {tr : Trace} {acc : List UInt8} (hi : Inv c)
    (he : CallersOk es) (hx : RxInv c acc) (h : c.run es = .ok (c', tr)) :
    RxInv c' (sinceFrame acc tr) := by
  induction es generalizing c tr acc with
  | nil => cases h; exact hx
  | cons e es ih =>
    obtain ⟨⟨c1, o⟩, h1, h⟩ := Exec.bind_eq_ok.1 h
    obtain ⟨⟨c2, os⟩, h2, h⟩ := Exec.bind_eq_ok.1 h
    cases h
    have hi1 := (step_spec hi (he e (by simp)) h1).1
    have hes : CallersOk es := fun x hx => he x (by simp [hx])
    have key := rx_step hi hx h1
    simp only [sinceFrame]
    refine ih hi1 hes ?_ h2
    intro hst
    rcases key hst with k | k
    · rw [if_pos k.1]; exact k.2
    · rw [if_neg (by simp [k.1])]; exact k.2

/-- C16 (partial: in the state in which the client expects the answer to a frame it has sent).  After
any history, a response with success status that a received piece of data gives rise to belongs to
the oldest waiting request; the bytes `w` received since the last frame was sent form one complete
frame with the transaction id of that request, and either the frame has the same slave address and
function, and the response carries exactly its data, or it carries no data and stems from an error
frame with the reported code (from 9 bytes on; shorter error frames are covered by
`C11_stale_error_code_violated`). -/
theorem C16_success_matches_partial (m : Mem) (es : List Ev) (he : CallersOk es) (c : Client)
    (tr : Trace) (hrun : (create m).run es = .ok (c, tr)) (hst : c.st = .receive)
    (rx : Rx) (c' : Client) (o : List COut) (h : c.step (.data rx) = .ok (c', o))
    (r : CRsp) (hr : .rsp r ∈ o) (hs : r.success = true) :
    ∃ bs p ps, rx = .ok bs ∧ c.pending = p :: ps ∧
      r.clientId = p.clientId ∧ r.transactId = p.transactId ∧
      (let w := sinceFrame [] tr ++ bs.take (512 - (sinceFrame [] tr).length)
       (AnswerFrame w p ∧ r.error = 0 ∧ r.data = frameData w) ∨
       (r.data = [] ∧ wordAt w 4 + 6 = w.length ∧ wordAt w 2 = 0 ∧ wordAt w 0 = p.transactId ∧
        (9 ≤ w.length → byteAt w 6 = p.addr ∧ byteAt w 7 = 0x8f ∧ r.error = byteAt w 8))) := by
  have hi := run_inv (inv_create m) he hrun
  have hx := rx_run (acc := []) (inv_create m) he (by simp [RxInv, create]) hrun hst
  have := receive_success hi hst h hr hs
  rw [hx] at this
  exact this

/-- Non-vacuity: see `sampleHistory`; the first response there is a success with data, and the answer
may come in two pieces. -/
example : responses (connectEvs ++ [.req (sampleCall 5), .timer true true,
      .data (.ok ((sampleAnswer 5).take 3)), .data (.ok ((sampleAnswer 5).drop 3))]) =
    some [{ clientId := 1, transactId := 5, success := true, error := 0, data := [2, 1, 4, 3] }] ∧
    frameData (sampleAnswer 5) = [2, 1, 4, 3] := by
  decide +kernel

/-- Violation of C16: an error frame with code 0 is reported as success without Modbus error and
without data, although the request was to read two registers. -/
theorem C16_error_zero_violated :
    responses (connectEvs ++ [.req (sampleCall 5), .timer true true,
      .data (.ok [0, 5, 0, 0, 0, 3, 9, 0x8f, 0])]) =
    some [{ clientId := 1, transactId := 5, success := true, error := 0, data := [] }] := by
  decide +kernel

/-- A response to a first request that carries, at offset 12, the bytes of a response to transaction
7. -/
def trojan : List UInt8 := [0, 5, 0, 0, 0, 19, 9, 3, 16, 0, 0, 0] ++ sampleAnswer 7

/-- Violation of C16: after a long answer to request 5 and a shorter one to request 6 (a write), request
7 waits to be sent.  The peer closes the connection; the zero-length read decodes the old bytes behind
the last frame, and request 7, which was never sent, is reported as successful. -/
theorem C16_stale_answer_violated :
    responses (connectEvs ++ [.req (sampleCall 5), .timer true true, .data (.ok trojan),
      .req { sampleCall 6 with func := fPresetSingle, numItems := 0, numBytes := 2, data := some [1, 0] },
      .req (sampleCall 7), .timer true true,
      .data (.ok [0, 6, 0, 0, 0, 6, 9, 6, 0, 7, 0, 1]), .data (.ok [])]) = some
      [{ clientId := 1, transactId := 5, success := true, error := 0,
         data := [0, 0, 0, 0, 0, 7, 0, 0, 9, 7, 4, 3, 2, 1, 4, 3] },
       { clientId := 1, transactId := 6, success := true, error := 0, data := [1, 0] },
       { clientId := 1, transactId := 7, success := true, error := 0, data := [2, 1, 4, 3] }] := by
  decide +kernel

/-- Whether a history runs into an access outside the buffers. -/
def outOfBounds (es : List Ev) : Bool :=
  match (create fun _ => 0).run es with
  | .ub => true
  | _ => false

/-- Violation of C16 (and of C11's bounds): the same mechanism reads past the end of the receive
buffer.  The peer first sends 512 bytes, then a 259-byte answer, then closes the connection while a
third request waits to be sent. -/
theorem C16_out_of_bounds_violated :
    outOfBounds (connectEvs ++ [.req (sampleCall 5), .timer true true,
      .data (.ok ([0, 5, 0, 0, 0, 7] ++ List.replicate 253 0 ++ [0, 7, 0, 0, 0, 253, 9, 3, 250] ++
        List.replicate 300 0)),
      .req (sampleCall 6), .req (sampleCall 7), .timer true true,
      .data (.ok ([0, 6, 0, 0, 0, 253, 9, 3, 250] ++ List.replicate 250 0)), .data (.ok [])]) = true := by
  decide +kernel

end Uscada.Modbus.Client
