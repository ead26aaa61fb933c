import Verif.ModbusClientProps
/-!
# Property C112: a Modbus request is sent at most once

Specification: the frames that a client hands to its links in the whole of its life, over all connections, are the encodings of some of
the requests that it was given, in the order in which it was given them and none more often than it was given; a request that has
been answered is not sent any more; and a request that is reported as successful has been sent.
-/

namespace Uscada.Modbus

open AduStorage (Pending pendingOf)

namespace Client

/-! ## Specification -/

/-- The requests given to the client in a history. -/
def calls : List Ev → List CallerReq
  | [] => []
  | .req r :: es => r :: calls es
  | _ :: es => calls es

/-- The frames among some effects. -/
def framesOf : List COut → List (List UInt8)
  | [] => []
  | .rsp _ :: os => framesOf os
  | .frame w :: os => w :: framesOf os

/-- The frames handed to the links in a history. -/
def sent (tr : Trace) : List (List UInt8) := framesOf (tr.flatMap Prod.snd)

/-- The frame that the standard prescribes for a request (`reqFrame`, see C08 and C10). -/
def frameFor (r : CallerReq) : List UInt8 := reqFrame (reqOfPending (pendingOf r))

/-- The responses among some effects. -/
def rsps : List COut → List CRsp
  | [] => []
  | .rsp r :: os => r :: rsps os
  | .frame _ :: os => rsps os

/-! ## Helper lemmas -/

/-- The frame of a stored request. -/
def frameP (p : Pending) : List UInt8 := reqFrame (reqOfPending p)

/-- The stored requests that have not been sent. -/
def unsent (c : Client) : List Pending := if c.st = .receive then c.pending.tail else c.pending

/-- The request that an event brings. -/
def taken : Ev → List Pending
  | .req r => [pendingOf r]
  | _ => []

@[simp] theorem framesOf_append (a b : List COut) : framesOf (a ++ b) = framesOf a ++ framesOf b := by
  induction a with
  | nil => rfl
  | cons x a ih => cases x <;> simp [framesOf, ih]

@[simp] theorem framesOf_drain (l : List Pending) : framesOf (l.map fun p => rspError p.clientId p.transactId) = [] := by
  induction l with
  | nil => rfl
  | cons x l ih => simpa [rspError, framesOf] using ih

theorem sent_append (a b : Trace) : sent (a ++ b) = sent a ++ sent b := by simp [sent]

theorem calls_append (a b : List Ev) : calls (a ++ b) = calls a ++ calls b := by
  induction a with
  | nil => rfl
  | cons e a ih => cases e <;> simp [calls, ih]

theorem taken_calls (es : List Ev) : es.flatMap taken = (calls es).map pendingOf := by
  induction es with
  | nil => rfl
  | cons e es ih => cases e <;> simp [calls, taken, ih]

theorem evaluate_frames {c c' : Client} {p : Pending} {o : List COut} {s : Status}
    (h : evaluate c p = .ok (c', o, s)) : framesOf o = [] := by
  unfold evaluate evaluateIn at h
  repeat' (first | split at h | (obtain ⟨⟨b, a, ok⟩, hd, h⟩ := Exec.bind_eq_ok.1 h; simp only [Exec.pure_eq] at h))
  all_goals (cases h; rfl)

theorem receive_frames {c c' : Client} {rx : Rx} {o : List COut} {s : Status}
    (h : receive c rx = .ok (c', o, s)) : framesOf o = [] := by
  unfold receive at h
  split at h
  · cases h; rfl
  split at h
  · cases h; rfl
  split at h
  · cases h; rfl
  · cases h; rfl
  · dsimp only at h
    split at h
    · cases h; rfl
    · exact evaluate_frames h

theorem send_frames {c c' : Client} {b : Bool} {o : List COut} {s : Status} (hok : ∀ p ∈ c.pending, PendingOk p)
    (h : send c b = .ok (c', o, s)) :
    (s ≠ .done ∧ framesOf o = []) ∨ (s = .done ∧ ∃ p ps, c.pending = p :: ps ∧ framesOf o = [frameP p]) := by
  rw [send_body] at h
  split at h
  · cases h; exact .inl ⟨by simp, rfl⟩
  · rename_i p ps hp
    obtain ⟨h1, h2⟩ := hok p (by simp [hp])
    obtain ⟨b, ok, e1, _, _, e3⟩ := encodeReq_eq (fun _ => 0) (reqOfPending p)
      (by simp [reqOfPending, h1]) (by simpa [reqOfPending] using h2)
    rw [e1] at h
    simp only [Exec.ok_bind, Exec.pure_eq] at h
    split at h
    · cases h; exact .inl ⟨by simp, rfl⟩
    rename_i hk
    split at h
    · cases h
      refine .inr ⟨rfl, p, ps, hp, ?_⟩
      have := (e3 (by simpa using hk)).1.content
      simp [framesOf, frameP, this]
    · cases h; exact .inl ⟨by simp, rfl⟩

/-- What one event does with the requests that have not been sent. -/
structure Sends (c : Client) (e : Ev) (o : List COut) (c' : Client) (l : List Pending) : Prop where
  frames : framesOf o = l.map frameP
  order : (l ++ unsent c').Sublist (unsent c ++ taken e)
  flight : c'.st = .receive → (c.st = .receive ∧ l = [] ∧ c'.pending.head? = c.pending.head?) ∨
    (∃ p, l = [p] ∧ c'.pending.head? = some p)
  oldest : l ≠ [] → c.st = .send ∧ ∃ p ps, c.pending = p :: ps ∧ l = [p]

theorem unsent_sublist (c : Client) : (unsent c).Sublist c.pending := by
  unfold unsent
  split
  · exact List.tail_sublist _
  · exact List.Sublist.refl _

theorem fail_sends {c : Client} (h : c.st ≠ .backoff) :
    c.fail.1.pending = [] ∧ c.fail.1.st = .backoff ∧ framesOf c.fail.2 = [] := by
  obtain ⟨st, pending, pdu, timer, opened⟩ := c
  cases st <;> simp_all [fail, drain, transit, enter, exit]

theorem step_sends {c c' : Client} {e : Ev} {o : List COut} (hi : Inv c) (h : c.step e = .ok (c', o)) :
    ∃ l, Sends c e o c' l := by
  have nil_of : framesOf o = [] → (unsent c').Sublist (unsent c ++ taken e) →
      (c'.st = .receive → c.st = .receive ∧ c'.pending.head? = c.pending.head?) → ∃ l, Sends c e o c' l := by
    intro h1 h2 h3
    exact ⟨[], h1, h2, fun hs => .inl ⟨(h3 hs).1, rfl, (h3 hs).2⟩, fun hh => absurd rfl hh⟩
  obtain ⟨i1, i2, i3, i4, i5, i6, i7⟩ := hi
  cases e with
  | start ok =>
    simp only [step] at h
    split at h
    · rename_i hs
      cases h
      exact nil_of rfl (by simp [unsent, transit, enter, exit, hs]) (by simp [transit, enter, exit, hs])
    · cases h
      exact nil_of rfl (by simp) (fun hs => ⟨hs, rfl⟩)
  | connected =>
    simp only [step] at h
    split at h <;> cases h
    · obtain ⟨st, pending, pdu, timer, opened⟩ := c
      cases st <;> exact nil_of rfl (by simp [onConnected, unsent, transit, enter, exit])
        (by simp [onConnected, transit, enter, exit])
    · obtain ⟨st, pending, pdu, timer, opened⟩ := c
      cases st <;> exact nil_of rfl (by simp [onError, unsent, transit, enter, exit])
        (by simp [onError, transit, enter, exit])
  | linkError =>
    simp only [step] at h
    cases h
    obtain ⟨st, pending, pdu, timer, opened⟩ := c
    cases st <;> exact nil_of rfl (by simp [onError, unsent, transit, enter, exit])
      (by simp [onError, transit, enter, exit])
  | req r =>
    simp only [step] at h
    obtain ⟨⟨l, ok⟩, h1, h⟩ := Exec.bind_eq_ok.1 h
    rcases storePush_spec h1 with ⟨rfl, _, _, rfl⟩ | ⟨rfl, _, rfl⟩
    · obtain ⟨st, pending, pdu, timer, opened⟩ := c
      cases st <;> cases h
      case req.inl.init.refl => exact nil_of (framesOf_drain _) (by simp [unsent]) (by simp)
      case req.inl.connect.refl => exact nil_of (framesOf_drain _) (by simp [unsent]) (by simp)
      case req.inl.backoff.refl => exact nil_of (framesOf_drain _) (by simp [unsent]) (by simp)
      case req.inl.connected.refl => exact nil_of rfl (by simp [unsent, transit, enter, exit, taken]) (by simp [transit, enter, exit])
      case req.inl.send.refl => exact nil_of rfl (by simp [unsent, taken]) (by simp)
      case req.inl.receive.refl =>
        obtain ⟨hp, _⟩ := i6 rfl
        cases pending with
        | nil => exact absurd rfl hp
        | cons p ps => exact nil_of rfl (by simp [unsent, taken]) (by simp)
    · cases h
      exact nil_of rfl (by simp) (fun hs => ⟨hs, rfl⟩)
  | data rx =>
    simp only [step, onData] at h
    split at h
    · cases h; exact nil_of rfl (by simp) (fun hs => ⟨hs, rfl⟩)
    · cases h; exact nil_of rfl (by simp) (fun hs => ⟨hs, rfl⟩)
    · cases h; exact nil_of rfl (by simp) (fun hs => ⟨hs, rfl⟩)
    · rename_i hst
      obtain ⟨⟨c1, o1, s⟩, h1, h⟩ := Exec.bind_eq_ok.1 h
      obtain ⟨r1, r2, _⟩ := receive_spec i7 h1
      have hf := receive_frames h1
      split at h
      · cases h
        obtain ⟨f1, f2, f3⟩ := fail_sends (c := c1) (by rw [r1, hst]; simp)
        exact nil_of (by simp [hf, f3]) (by simp [unsent, f1]) (by simp [f2])
      · cases h
        exact nil_of hf (by simp [unsent, r1, r2]) (by simp [r1, hst])
    · rename_i hst
      obtain ⟨⟨c1, o1, s⟩, h1, h⟩ := Exec.bind_eq_ok.1 h
      obtain ⟨r1, r2, _⟩ := receive_spec i7 h1
      have hf := receive_frames h1
      split at h
      · cases h
        obtain ⟨f1, f2, f3⟩ := fail_sends (c := c1) (by rw [r1, hst]; simp)
        exact nil_of (by simp [hf, f3]) (by simp [unsent, f1]) (by simp [f2])
      · cases h
        exact nil_of hf (by simp [unsent, r1, r2]) (by simp [r1, hst])
    · rename_i hst
      obtain ⟨⟨c1, o1, s⟩, h1, h⟩ := Exec.bind_eq_ok.1 h
      obtain ⟨r1, r2, _⟩ := receive_spec i7 h1
      have hf := receive_frames h1
      split at h
      · cases h
        obtain ⟨f1, f2, f3⟩ := fail_sends (c := c1) (by rw [r1, hst]; simp)
        exact nil_of (by simp [hf, f3]) (by simp [unsent, f1]) (by simp [f2])
      · cases h
        refine nil_of hf ?_ ?_
        · simp [unsent, transit, enter, exit, r1, r2, hst]
        · simp [transit, enter, exit, r1, hst]
      · cases h
        exact nil_of hf (by simp [unsent, r1, r2]) (by simp [r1, r2, hst])
  | timer a b =>
    simp only [step] at h
    split at h
    rotate_left
    · cases h; exact nil_of rfl (by simp) (fun hs => ⟨hs, rfl⟩)
    simp only [onTimer] at h
    split at h
    · rename_i hst; cases h; exact nil_of rfl (by simp [unsent]) (fun hs => ⟨hs, rfl⟩)
    · rename_i hst; cases h; exact nil_of rfl (by simp [unsent]) (fun hs => ⟨hs, rfl⟩)
    · rename_i hst
      cases h
      have hst' : c.st = .connect := hst
      exact nil_of rfl (by simp [unsent, transit, enter, exit, hst']) (by simp [transit, enter, exit, hst'])
    · rename_i hst
      have hst' : c.st = .send := hst
      obtain ⟨⟨c1, o1, s⟩, h1, h⟩ := Exec.bind_eq_ok.1 h
      obtain ⟨e1, e2, e3, e4, e5⟩ := send_spec h1
      have hf := send_frames (by exact i4) h1
      obtain ⟨st1, pend1, pdu1, tm1, op1⟩ := c1
      simp only [hst'] at e1 e5 hf
      subst e1
      have hu : unsent c = c.pending := by simp [unsent, hst']
      rcases hf with ⟨hs, hf⟩ | ⟨rfl, p, ps, hp, hf⟩
      · rcases e5 with ⟨k1, rfl, rfl, rfl⟩ | ⟨p, ps, k1, ⟨rfl, k2, rfl⟩ | ⟨rfl, k2, rfl⟩ | ⟨rfl, k2, rfl⟩⟩
        · cases h
          exact nil_of rfl (by simp [unsent, transit, enter, exit]) (by simp [transit, enter, exit])
        · cases h
          refine nil_of hf ?_ (by simp)
          rw [hu, k1]
          simp [unsent, taken]
        · exact absurd rfl hs
        · cases h
          obtain ⟨f1, f2, f3⟩ := fail_sends (c := ⟨.send, p :: ps, pdu1, tm1, op1⟩) (by simp)
          exact nil_of (by simp [hf, f3]) (by simp [unsent, f1]) (by simp [f2])
      · rcases e5 with ⟨k1, k2, _⟩ | ⟨p', ps', k1, ⟨k2, _⟩ | ⟨_, k2, rfl⟩ | ⟨k2, _⟩⟩
        · cases k2
        · cases k2
        · have hpp : p' = p ∧ ps' = ps := by simpa [k1] using hp
          obtain ⟨rfl, rfl⟩ := hpp
          cases h
          refine ⟨[p'], by simp [hf], ?_, ?_, ?_⟩
          · rw [hu, k1]
            simp [unsent, transit, enter, exit, taken]
          · intro _
            exact .inr ⟨p', rfl, by simp [transit, enter, exit]⟩
          · intro _
            exact ⟨hst', p', ps', k1, rfl⟩
        · cases k2
    · rename_i hst
      have hst' : c.st = .receive := hst
      cases h
      refine nil_of ?_ (by simp [unsent, transit, enter, exit, hst']) (by simp [transit, enter, exit, hst'])
      split <;> rfl
    · rename_i hst
      have hst' : c.st = .backoff := hst
      cases h
      exact nil_of rfl (by simp [unsent, transit, enter, exit, hst']) (by simp [transit, enter, exit, hst'])

theorem run_sends {c c' : Client} {es : List Ev} {tr : Trace} (hi : Inv c) (he : CallersOk es)
    (h : c.run es = .ok (c', tr)) :
    ∃ l, sent tr = l.map frameP ∧ (l ++ unsent c').Sublist (unsent c ++ es.flatMap taken) ∧
      ∀ fl : List Pending, (c.st = .receive → c.pending.head? = fl.getLast?) → c'.st = .receive →
        c'.pending.head? = (fl ++ l).getLast? := by
  induction es generalizing c tr with
  | nil => cases h; exact ⟨[], rfl, by simp, fun fl h1 h2 => by simpa using h1 h2⟩
  | cons e es ih =>
    obtain ⟨⟨c1, o⟩, h1, h⟩ := Exec.bind_eq_ok.1 h
    obtain ⟨⟨c2, os⟩, h2, h⟩ := Exec.bind_eq_ok.1 h
    cases h
    obtain ⟨hi1, _⟩ := step_spec hi (he e (by simp)) h1
    obtain ⟨l1, hl⟩ := step_sends hi h1
    obtain ⟨l2, k1, k2, k3⟩ := ih hi1 (fun x hx => he x (by simp [hx])) h2
    refine ⟨l1 ++ l2, ?_, ?_, ?_⟩
    · have : sent ((e, o) :: os) = framesOf o ++ sent os := by simp [sent]
      rw [this, hl.frames, k1, List.map_append]
    · rw [List.append_assoc, List.flatMap_cons, ← List.append_assoc (unsent c)]
      exact (k2.append_left l1).trans (by rw [← List.append_assoc]; exact hl.order.append_right _)
    · intro fl hc
      rw [← List.append_assoc]
      refine k3 (fl ++ l1) fun hst => ?_
      rcases hl.flight hst with ⟨g1, rfl, g3⟩ | ⟨p, rfl, g3⟩
      · rw [g3, hc g1, List.append_nil]
      · rw [g3]; simp

/-- C112: the frames sent by a client in the whole of its life are those of some of the requests it was given, in their order, each
at most once – whatever links fail, answers are missing and connections are made anew. -/
theorem C112_sent_at_most_once (m : Mem) (es : List Ev) (he : CallersOk es) (c : Client) (tr : Trace)
    (h : (create m).run es = .ok (c, tr)) : ∃ l : List CallerReq, l.Sublist (calls es) ∧ sent tr = l.map frameFor := by
  obtain ⟨l, h1, h2, _⟩ := run_sends (inv_create m) he h
  rw [taken_calls, show unsent (create m) = [] from rfl, List.nil_append] at h2
  obtain ⟨l', k1, rfl⟩ := List.sublist_map_iff.1 ((List.sublist_append_left l (unsent c)).trans h2)
  exact ⟨l', k1, by rw [h1, List.map_map]; rfl⟩

/-- C112: a frame is sent for the oldest request that has not been answered – never for one that has.  Missing: histories in which
bytes arrive while a request waits to be sent, see `C112_answered_then_sent_violated`. -/
theorem C112_sent_before_answered_partial (m : Mem) (es : List Ev) (e : Ev) (he : CallersOk (es ++ [e]))
    (ho : Orderly (create m) es) (c c' : Client) (tr : Trace) (o : List COut) (h : (create m).run es = .ok (c, tr))
    (h1 : c.step e = .ok (c', o)) (w : List UInt8) (hw : .frame w ∈ o) :
    ∃ r rest, r ∈ calls es ∧ w = frameFor r ∧ Serves [] tr (rid r :: rest) := by
  have he1 : CallersOk es := fun x hx => he x (by simp [hx])
  have hi := run_inv (inv_create m) he1 h
  obtain ⟨c2, tr2, k1, _, k2, _⟩ := C14_exactly_once_partial m es he1 ho
  rw [h] at k1
  cases k1
  obtain ⟨l, hl⟩ := step_sends hi h1
  have hmem : ∀ o : List COut, COut.frame w ∈ o → w ∈ framesOf o := by
    intro o
    induction o with
    | nil => simp
    | cons x o ih => cases x <;> simp [framesOf] <;> grind
  have hm := hmem o hw
  rw [hl.frames] at hm
  obtain ⟨hs, p, ps, hp, rfl⟩ := hl.oldest (by rintro rfl; simp at hm)
  obtain ⟨l2, _, l3, _⟩ := run_sends (inv_create m) he1 h
  rw [taken_calls, show unsent (create m) = [] from rfl, List.nil_append] at l3
  have hpm : p ∈ (calls es).map pendingOf := l3.subset (by simp [unsent, hs, hp])
  obtain ⟨r, hr, rfl⟩ := List.mem_map.1 hpm
  refine ⟨r, ps.map pid, hr, by simpa [frameFor, frameP] using hm, ?_⟩
  rw [hp] at k2
  exact k2

theorem rsps_drain (l : List Pending) : ∀ x ∈ rsps (l.map fun p => rspError p.clientId p.transactId), x.success = false := by
  induction l with
  | nil => simp [rsps]
  | cons p l ih => simpa [rspError, rsps] using ih

@[simp] theorem rsps_append (a b : List COut) : rsps (a ++ b) = rsps a ++ rsps b := by
  induction a with
  | nil => rfl
  | cons x a ih => cases x <;> simp [rsps, ih]

theorem ids_rsps (o : List COut) : ids o = (rsps o).map fun x => (x.clientId, x.transactId) := by
  induction o with
  | nil => rfl
  | cons x o ih => cases x <;> simp [ids, rsps, ih]

theorem rsps_fail (c : Client) : ∀ x ∈ rsps c.fail.2, x.success = false := rsps_drain c.pending

theorem receive_quiet {c c' : Client} {rx : Rx} {o : List COut} {s : Status} (hrx : ∀ bs, rx ≠ .ok bs)
    (h : receive c rx = .ok (c', o, s)) : o = [] := by
  unfold receive at h
  split at h
  · cases h; rfl
  split at h
  · cases h; rfl
  split at h
  · cases h; rfl
  · cases h; rfl
  · exact absurd rfl (hrx _)

/-- A success is reported for the oldest request while its answer is awaited. -/
theorem success_spec {c c' : Client} {rx : Rx} {o : List COut} (hi : Inv c) (ho : OrderlyEv c (.data rx))
    (h : c.step (.data rx) = .ok (c', o)) {x : CRsp} (hx : x ∈ rsps o) (hs : x.success = true) :
    c.st = .receive ∧ ∃ p ps, c.pending = p :: ps ∧ pid p = (x.clientId, x.transactId) := by
  have noFail : ∀ d : Client, x ∉ rsps d.fail.2 := by
    intro d hd
    rw [rsps_fail d x hd] at hs
    cases hs
  have inIds : ∀ o1, x ∈ rsps o1 → (x.clientId, x.transactId) ∈ ids o1 := by
    intro o1 h1
    rw [ids_rsps]
    exact List.mem_map_of_mem h1
  simp only [step, onData] at h
  split at h
  · cases h; simp [rsps] at hx
  · cases h; simp [rsps] at hx
  · cases h; simp [rsps] at hx
  · rename_i hst
    have hp := hi.idle (by simp [busy, hst])
    obtain ⟨⟨c1, o1, s⟩, h1, h⟩ := Exec.bind_eq_ok.1 h
    obtain ⟨_, _, _, _, _, _, r7, _⟩ := receive_spec hi.cap h1
    have h0 : x ∉ rsps o1 := by
      intro hh
      have := inIds o1 hh
      rcases r7 with r7 | ⟨p, ps, r7, _⟩
      · simp [r7] at this
      · rw [hp] at r7; cases r7
    split at h <;> cases h
    · rw [rsps_append, List.mem_append] at hx
      exact absurd hx (by simp [h0, noFail])
    · exact absurd hx h0
  · rename_i hst
    obtain ⟨⟨c1, o1, s⟩, h1, h⟩ := Exec.bind_eq_ok.1 h
    have h0 : o1 = [] := by
      refine receive_quiet ?_ h1
      rintro bs rfl
      exact ho.1 hst
    subst h0
    split at h <;> cases h
    · exact absurd hx (by simp [noFail])
    · simp [rsps] at hx
  · rename_i hst
    refine ⟨hst, ?_⟩
    obtain ⟨⟨c1, o1, s⟩, h1, h⟩ := Exec.bind_eq_ok.1 h
    obtain ⟨_, _, _, _, _, _, r7, _⟩ := receive_spec hi.cap h1
    have h0 : x ∈ rsps o1 := by
      split at h <;> cases h
      · rw [rsps_append, List.mem_append] at hx
        rcases hx with hx | hx
        · exact hx
        · exact absurd hx (noFail c1)
      · exact hx
      · exact hx
    have := inIds o1 h0
    rcases r7 with r7 | ⟨p, ps, r7, r8⟩
    · simp [r7] at this
    · rw [r8] at this
      exact ⟨p, ps, r7, (List.mem_singleton.1 this).symm⟩

theorem orderly_last {c c' : Client} {es : List Ev} {e : Ev} {tr : Trace} (ho : Orderly c (es ++ [e]))
    (h : c.run es = .ok (c', tr)) : OrderlyEv c' e := by
  induction es generalizing c tr with
  | nil => cases h; exact ho.1
  | cons e1 es ih =>
    obtain ⟨⟨c1, o⟩, h1, h⟩ := Exec.bind_eq_ok.1 h
    obtain ⟨⟨c2, os⟩, h2, h⟩ := Exec.bind_eq_ok.1 h
    cases h
    have h3 := ho.2
    simp only [h1] at h3
    exact ih h3 h2

/-- C112: a request that is reported as successful has been sent, and it is the one that was sent last.  Missing: histories in which
bytes arrive while a request waits to be sent, see `C112_answered_then_sent_violated`. -/
theorem C112_success_was_sent_partial (m : Mem) (es : List Ev) (rx : Rx) (he : CallersOk es)
    (ho : Orderly (create m) (es ++ [.data rx])) (c c' : Client) (tr : Trace) (o : List COut)
    (h : (create m).run es = .ok (c, tr)) (h1 : c.step (.data rx) = .ok (c', o)) (x : CRsp) (hx : x ∈ rsps o)
    (hs : x.success = true) :
    ∃ r ∈ calls es, rid r = (x.clientId, x.transactId) ∧ (sent tr).getLast? = some (frameFor r) := by
  have hi := run_inv (inv_create m) he h
  obtain ⟨g1, p, ps, g2, g3⟩ := success_spec hi (orderly_last ho h) h1 hx hs
  obtain ⟨l, l1, l2, l3⟩ := run_sends (inv_create m) he h
  rw [taken_calls, show unsent (create m) = [] from rfl, List.nil_append] at l2
  have hl := l3 [] (by simp [create]) g1
  rw [g2, List.nil_append, List.head?_cons] at hl
  have hp : p ∈ (calls es).map pendingOf :=
    l2.subset (List.mem_append.2 (.inl (List.mem_of_getLast? hl.symm)))
  obtain ⟨r, hr, rfl⟩ := List.mem_map.1 hp
  exact ⟨r, hr, g3, by rw [l1, List.getLast?_map, ← hl]; rfl⟩

/-- C112: in every state, only bytes from the peer yield a success. -/
theorem C112_success_from_peer (c c' : Client) (e : Ev) (hd : ∀ rx, e ≠ .data rx) (o : List COut) (h1 : c.step e = .ok (c', o))
    (x : CRsp) (hx : x ∈ rsps o) : x.success = false := by
  cases e with
  | start ok =>
    simp only [step] at h1
    split at h1 <;> cases h1 <;> simp [rsps] at hx
  | connected =>
    simp only [step] at h1
    split at h1 <;> cases h1 <;> simp [rsps] at hx
  | linkError =>
    cases h1
    simp [rsps] at hx
  | data rx => exact absurd rfl (hd rx)
  | req r =>
    simp only [step] at h1
    obtain ⟨⟨l, ok⟩, h2, h1⟩ := Exec.bind_eq_ok.1 h1
    dsimp only at h1
    split at h1
    · obtain ⟨st, pending, pdu, timer, opened⟩ := c
      cases st <;> cases h1
      all_goals first | exact rsps_drain _ x hx | simp [rsps] at hx
    · cases h1
      exact rsps_drain [pendingOf r] x hx
  | timer a b =>
    simp only [step] at h1
    split at h1
    rotate_left
    · cases h1; simp [rsps] at hx
    simp only [onTimer] at h1
    split at h1
    · cases h1; simp [rsps] at hx
    · cases h1; simp [rsps] at hx
    · cases h1; simp [rsps] at hx
    · obtain ⟨⟨c1, o1, s⟩, h2, h1⟩ := Exec.bind_eq_ok.1 h1
      have hso : ∀ y ∈ rsps o1, y.success = false := by
        rw [send_body] at h2
        split at h2
        · cases h2; simp [rsps]
        · rename_i p ps hp
          obtain ⟨⟨b, ok⟩, he, h2⟩ := Exec.bind_eq_ok.1 h2
          dsimp only [Exec.pure_eq] at h2
          split at h2
          · cases h2; exact rsps_drain [p]
          split at h2 <;> cases h2 <;> simp [rsps]
      dsimp only at h1
      split at h1 <;> cases h1
      · exact hso x hx
      · rw [rsps_append, List.mem_append] at hx
        rcases hx with hx | hx
        · exact hso x hx
        · exact rsps_fail c1 x hx
      · exact hso x hx
      · exact hso x hx
    · cases h1
      revert hx
      cases c.pending with
      | nil => simp [rsps]
      | cons p ps => exact fun hx => rsps_drain [p] x hx
    · cases h1; simp [rsps] at hx

/-! ## Violation and examples -/

/-- What a client reports and sends in a history. -/
def story (es : List Ev) : Option (List COut) :=
  match (create fun _ => 0).run es with
  | .ok (_, tr) => some (tr.flatMap Prod.snd)
  | _ => none

/-- Violation of C112: bytes that arrive before the request was sent are taken as its answer; the caller is told that the request
has succeeded, and it is sent after that. -/
theorem C112_answered_then_sent_violated :
    story (connectEvs ++ [.req (sampleCall 5), .data (.ok (sampleAnswer 5)), .timer true true]) = some
      [.rsp { clientId := 1, transactId := 5, success := true, error := 0, data := [2, 1, 4, 3] },
       .frame (frameFor (sampleCall 5))] := by
  decide +kernel

/-- Three requests: the first is not answered in time, the second can not be encoded, the link fails before the third is sent; after
the next connection only the fourth is sent. -/
example : story (connectEvs ++ [.req (sampleCall 5), .req { sampleCall 6 with addr := 248 }, .req (sampleCall 7), .timer true true,
    .timer true true, .timer true true, .linkError, .timer true true, .timer true true, .connected, .req (sampleCall 8),
    .timer true true]) = some
      [.frame (frameFor (sampleCall 5)), rspError 1 5, rspError 1 6, rspError 1 7, .frame (frameFor (sampleCall 8))] := by
  decide +kernel

/-- A request that is answered. -/
example : story (connectEvs ++ [.req (sampleCall 5), .timer true true, .data (.ok (sampleAnswer 5))]) = some
      [.frame (frameFor (sampleCall 5)),
       .rsp { clientId := 1, transactId := 5, success := true, error := 0, data := [2, 1, 4, 3] }] := by
  decide +kernel

end Client

end Uscada.Modbus
