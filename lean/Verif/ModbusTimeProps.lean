import Verif.ModbusTime
/-!
# Property C76: waiting is bounded in time

Specification: a request given to the client is answered at a time that depends on the number of requests before it only; a
client without a connection tries again within a fixed time; a session whose peer is silent ends within a fixed time.
-/

namespace Uscada.Modbus

open AduStorage (Pending pendingOf)

namespace Client

/-! ## What an event does with the queue, the state and the timer -/

/-- Nothing but appending to the queue. -/
def Kept (c c' : Client) (e : Ev) : Prop :=
  c'.st = c.st ∧ isTimer e = false ∧ ∃ l, c'.pending = c.pending ++ l

/-- The first request is gone and the next one is to be sent. -/
def Popped (c c' : Client) (e : Ev) (o : List COut) : Prop :=
  c'.st = .send ∧ c'.timer = true ∧ (c.st = .receive ∨ isTimer e = true) ∧ ∃ p ps, c.pending = p :: ps ∧ c'.pending = ps ∧
    (ids o = [pid p] ∨ (ids o = [] ∧ ∃ rx, e = .data rx))

/-- The first request was sent. -/
def Sent (c c' : Client) (e : Ev) : Prop :=
  c.st = .send ∧ c'.st = .receive ∧ c'.timer = true ∧ isTimer e = true ∧ c'.pending = c.pending

/-- All requests were answered. -/
def Drained (c c' : Client) (o : List COut) : Prop :=
  c'.pending = [] ∧ ∀ p ∈ c.pending, pid p ∈ ids o

theorem busy_step {c c' : Client} {e : Ev} {o : List COut} (hi : Inv c) (hb : busy c.st) (hne : c.pending ≠ [])
    (ht : isTimer e = true → c.timer = true) (h : c.step e = .ok (c', o)) :
    Kept c c' e ∨ Popped c c' e o ∨ Sent c c' e ∨ Drained c c' o := by
  have hbb := hb
  cases e with
  | start ok =>
    left
    rcases hb with hs | hs <;> (simp only [step, hs] at h; cases h; exact ⟨rfl, rfl, [], by simp⟩)
  | connected =>
    left
    rcases hb with hs | hs <;>
      (simp only [step, onConnected, onError, hs, ite_self] at h; cases h; exact ⟨rfl, rfl, [], by simp⟩)
  | linkError =>
    left
    rcases hb with hs | hs <;> (simp only [step, onError, hs] at h; cases h; exact ⟨hs.symm, rfl, [], by simp⟩)
  | req r =>
    left
    simp only [step] at h
    obtain ⟨⟨l, ok⟩, h1, h⟩ := Exec.bind_eq_ok.1 h
    dsimp only at h
    rcases storePush_spec h1 with ⟨rfl, _, _, rfl⟩ | ⟨rfl, _, rfl⟩
    · rw [if_pos rfl, Exec.pure_eq] at h
      rcases hb with hs | hs <;> (simp only [onReq, hs] at h; cases h; exact ⟨hs.symm, rfl, [pendingOf r], rfl⟩)
    · rw [if_neg (by simp), Exec.pure_eq] at h
      cases h
      exact ⟨rfl, rfl, [], by simp⟩
  | timer sOk cOk =>
    have ht := ht rfl
    simp only [step, ht, if_true] at h
    rcases hb with hs | hs
    · simp only [onTimer, hs] at h
      obtain ⟨⟨c1, o1, s⟩, h1, h⟩ := Exec.bind_eq_ok.1 h
      obtain ⟨e1, e2, e3, e4, e5⟩ := send_spec h1
      simp only [] at e1 e2 e3 e4 e5
      rcases e5 with ⟨e5, _⟩ | ⟨p, ps, e5, ⟨rfl, e6, e7⟩ | ⟨rfl, e6, e7⟩ | ⟨rfl, e6, e7⟩⟩
      · exact absurd e5 hne
      · cases h
        exact Or.inr (Or.inl ⟨by simp [e1], rfl, Or.inr rfl, p, ps, e5, e7, Or.inl e6⟩)
      · cases h
        refine Or.inr (Or.inr (Or.inl ⟨hs, ?_, ?_, rfl, ?_⟩)) <;> simp [transit, enter, exit, e1, e5, e7]
      · cases h
        obtain ⟨_, f2, f3⟩ := fail_spec (c := c1) (by simp [e1]) (by rw [e4]; exact hi.cap)
        refine Or.inr (Or.inr (Or.inr ⟨f2, fun q hq => ?_⟩))
        rw [ids_append, f3, e7, ← e5]
        exact List.mem_append_right _ (List.mem_map_of_mem hq)
    · simp only [onTimer, hs] at h
      obtain ⟨p, ps, hp⟩ := List.exists_cons_of_ne_nil hne
      cases h
      refine Or.inr (Or.inl ⟨?_, ?_, Or.inl hs, p, ps, hp, ?_, Or.inl ?_⟩) <;>
        simp [transit, enter, exit, hp]
  | data rx =>
    simp only [step] at h
    rcases hb with hs | hs
    · simp only [onData, hs] at h
      obtain ⟨⟨c1, o1, s⟩, h1, h⟩ := Exec.bind_eq_ok.1 h
      obtain ⟨e1, e2, e3, e4, e5, e6, e7, e8⟩ := receive_spec hi.cap h1
      dsimp only at h
      split at h
      · cases h
        obtain ⟨_, f2, f3⟩ := fail_spec (c := c1) (by simp [e1, hs]) e5
        refine Or.inr (Or.inr (Or.inr ⟨f2, fun q hq => ?_⟩))
        rw [ids_append, f3, e2]
        exact List.mem_append_right _ (List.mem_map_of_mem hq)
      · cases h
        exact Or.inl ⟨e1, rfl, [], by simp [e2]⟩
    · simp only [onData, hs] at h
      obtain ⟨⟨c1, o1, s⟩, h1, h⟩ := Exec.bind_eq_ok.1 h
      obtain ⟨e1, e2, e3, e4, e5, e6, e7, e8⟩ := receive_spec hi.cap h1
      dsimp only at h
      split at h
      · cases h
        obtain ⟨_, f2, f3⟩ := fail_spec (c := c1) (by simp [e1, hs]) e5
        refine Or.inr (Or.inr (Or.inr ⟨f2, fun q hq => ?_⟩))
        rw [ids_append, f3, e2]
        exact List.mem_append_right _ (List.mem_map_of_mem hq)
      · cases h
        obtain ⟨p, ps, hp⟩ := List.exists_cons_of_ne_nil hne
        refine Or.inr (Or.inl ⟨?_, ?_, Or.inl hs, p, ps, hp, ?_, ?_⟩)
        · simp [transit, enter, exit, e1, hs]
        · simp [transit, enter, exit, e1, hs]
        · simp [transit, enter, exit, e1, hs, e2, hp]
        · rcases e7 with e7 | ⟨p', ps', e7, e9⟩
          · exact Or.inr ⟨e7, rx, rfl⟩
          · rw [hp] at e7; cases e7; exact Or.inl e9
      · cases h
        exact Or.inl ⟨e1, rfl, [], by simp [e2]⟩

/-! ## The client answers in time -/

/-- The time for one request: the delay before sending, the time for the answer, and twice the lateness of timers. -/
def share (late : Nat) : Nat := 5010000 + 2 * late

namespace Timed

/-- The latest time at which the `k`-th waiting request, counted from 0, is answered. -/
def latest (late : Nat) (t : Timed) (k : Nat) : Nat :=
  match t.c.st with
  | .send => t.due + late + (5000000 + late) + k * share late
  | _ => t.due + late + k * share late

/-- A request with these identifiers waits and will be answered at time `T` at the latest. -/
def Waits (late : Nat) (x : Nat × Nat) (T : Nat) (t : Timed) : Prop :=
  busy t.c.st ∧ ∃ k p, t.c.pending[k]? = some p ∧ pid p = x ∧ t.latest late k ≤ T

theorem step_ok {t t' : Timed} {now : Nat} {e : Ev} {o : List COut} (h : t.step now e = .ok (t', o)) :
    t.c.step e = .ok (t'.c, o) ∧ t'.due = t.dueAfter now e t'.c := by
  unfold step at h
  split at h
  · rename_i c' o' hc
    cases h
    exact ⟨hc, rfl⟩
  · cases h
  · cases h
  · cases h

/-- In a state with a timer, the timer is due within one interval. -/
def Near (t : Timed) (now : Nat) : Prop := t.c.st ≠ .init → t.c.st ≠ .connected → t.due ≤ now + interval t.c.st

theorem armed_of {c : Client} (hi : Inv c) (h1 : c.st ≠ .init) (h2 : c.st ≠ .connected) : c.timer = true := by
  cases hs : c.st with
  | init => exact absurd hs h1
  | connected => exact absurd hs h2
  | connect => exact hi.armed' (Or.inl hs)
  | backoff => exact hi.armed' (Or.inr hs)
  | send => exact hi.armed (Or.inl hs)
  | receive => exact hi.armed (Or.inr hs)

theorem near_step {t t' : Timed} {last now : Nat} {e : Ev} {o : List COut} (hn : t.Near last) (hl : last ≤ now)
    (hi : Inv t'.c) (h : t.step now e = .ok (t', o)) : t'.Near now := by
  obtain ⟨h1, h2⟩ := step_ok h
  intro n1 n2
  have ha := armed_of hi n1 n2
  rw [h2]
  unfold dueAfter
  split
  · exact Nat.le_refl _
  · rename_i hx
    have hs : t'.c.st = t.c.st := by
      apply Classical.byContradiction
      intro hs
      exact hx ⟨ha, Or.inl hs⟩
    rw [hs] at n1 n2 ⊢
    have := hn n1 n2
    omega

/-- A new request is answered at once or waits behind the others. -/
theorem req_waits {late : Nat} {t t' : Timed} {now : Nat} {r : CallerReq} {o : List COut} (hi : Inv t.c)
    (hn : t.Near now) (h : t.step now (.req r) = .ok (t', o)) :
    rid r ∈ ids o ∨
      (t.c.pending.length < 64 ∧ t'.Waits late (rid r) (now + (t.c.pending.length + 1) * share late)) := by
  obtain ⟨h1, h2⟩ := step_ok h
  have hS : share late = 5010000 + 2 * late := rfl
  have hm : (t.c.pending.length + 1) * share late = t.c.pending.length * share late + share late := Nat.succ_mul _ _
  rw [hm]
  generalize hX : t.c.pending.length * share late = X
  simp only [Client.step] at h1
  obtain ⟨⟨l, ok⟩, h3, h1⟩ := Exec.bind_eq_ok.1 h1
  dsimp only at h1
  rcases storePush_spec h3 with ⟨rfl, h64, _, rfl⟩ | ⟨rfl, _, rfl⟩
  · rw [if_pos rfl, Exec.pure_eq] at h1
    have hdr : Exec.ok (drain { t.c with pending := t.c.pending ++ [pendingOf r] }) = Exec.ok (t'.c, o) → rid r ∈ ids o := by
      intro hd
      have : (drain { t.c with pending := t.c.pending ++ [pendingOf r] }).2 = o := by
        have := congrArg (fun x => match x with | Exec.ok y => y.2 | _ => []) hd
        simpa using this
      rw [← this]
      simp [drain, rid, pendingOf]
    have hkeep : busy t.c.st → t'.c.st = t.c.st → t'.c.pending = t.c.pending ++ [pendingOf r] →
        t'.Waits late (rid r) (now + (X + share late)) := by
      intro hb k1 k2
      refine ⟨by rw [k1]; exact hb, t.c.pending.length, pendingOf r, by rw [k2]; simp, rfl, ?_⟩
      have hdue : t'.due = t.due := by
        rw [h2]
        simp [dueAfter, k1, isTimer]
      unfold latest
      rw [k1, hdue, hX]
      rcases hb with hs | hs
      · have := hn (by simp [hs]) (by simp [hs])
        simp only [hs, interval] at this ⊢
        omega
      · have := hn (by simp [hs]) (by simp [hs])
        simp only [hs, interval] at this ⊢
        omega
    unfold onReq at h1
    split at h1
    · exact Or.inl (hdr h1)
    · exact Or.inl (hdr h1)
    · exact Or.inl (hdr h1)
    · rename_i hs
      simp only [] at hs
      refine Or.inr ⟨h64, ?_⟩
      have hp : t.c.pending = [] := hi.idle (by simp [busy, hs])
      have h4 : ({ t.c with pending := t.c.pending ++ [pendingOf r] } : Client).transit .send = t'.c := by
        have := congrArg (fun x => match x with | Exec.ok y => y.1 | _ => t'.c) h1
        simpa using this
      have k1 : t'.c.st = .send := by rw [← h4]; simp [transit, enter, exit, hs]
      have k2 : t'.c.timer = true := by rw [← h4]; simp [transit, enter, exit, hs]
      have k3 : t'.c.pending = [pendingOf r] := by rw [← h4]; simp [transit, enter, exit, hs, hp]
      have hdue : t'.due = now + 10000 := by
        rw [h2]
        unfold dueAfter
        rw [if_pos ⟨k2, Or.inl (by rw [k1, hs]; simp)⟩, k1]
        rfl
      refine ⟨Or.inl k1, 0, pendingOf r, by rw [k3]; rfl, rfl, ?_⟩
      unfold latest
      rw [k1, hdue]
      simp only []
      omega
    · rename_i hs
      simp only [] at hs
      refine Or.inr ⟨h64, ?_⟩
      have h4 : ({ t.c with pending := t.c.pending ++ [pendingOf r] } : Client) = t'.c := by
        have := congrArg (fun x => match x with | Exec.ok y => y.1 | _ => t'.c) h1
        simpa using this
      exact hkeep (Or.inl hs) (by rw [← h4]) (by rw [← h4])
    · rename_i hs
      simp only [] at hs
      refine Or.inr ⟨h64, ?_⟩
      have h4 : ({ t.c with pending := t.c.pending ++ [pendingOf r] } : Client) = t'.c := by
        have := congrArg (fun x => match x with | Exec.ok y => y.1 | _ => t'.c) h1
        simpa using this
      exact hkeep (Or.inr hs) (by rw [← h4]) (by rw [← h4])
  · left
    rw [if_neg (by simp), Exec.pure_eq] at h1
    have : [rspError r.clientId r.transactId] = o := by
      have := congrArg (fun x => match x with | Exec.ok y => y.2 | _ => []) h1
      simpa using this
    rw [← this]
    simp [rid]

theorem waits_step {late : Nat} {x : Nat × Nat} {T now : Nat} {t t' : Timed} {e : Ev} {o : List COut} (hi : Inv t.c)
    (hw : t.Waits late x T) (ha : t.Awake late now) (ht : isTimer e = true → t.c.timer = true)
    (h : t.step now e = .ok (t', o)) :
    now ≤ T ∧ (x ∈ ids o ∨ t'.Waits late x T ∨ (ids o = [] ∧ t'.c.pending = t.c.pending.tail ∧ ∃ rx, e = .data rx)) := by
  obtain ⟨hb, k, p, hk, hp, hT⟩ := hw
  obtain ⟨h1, h2⟩ := step_ok h
  have hd := ha (hi.armed hb)
  have hne : t.c.pending ≠ [] := by
    intro hh
    simp [hh] at hk
  have hnow : now ≤ T := by
    unfold latest at hT
    split at hT <;> omega
  refine ⟨hnow, ?_⟩
  rcases busy_step hi hb hne ht h1 with ⟨s1, s2, l, s3⟩ | ⟨s1, s2, s3, q, qs, s4, s5, s6⟩ | ⟨s1, s2, s3, s4, s5⟩ | ⟨s1, s2⟩
  · refine Or.inr (Or.inl ⟨by rw [s1]; exact hb, k, p, ?_, hp, ?_⟩)
    · rw [s3, List.getElem?_append_left (by
        have := List.getElem?_eq_some_iff.1 hk
        exact this.1)]
      exact hk
    · have : t'.due = t.due := by
        rw [h2]
        simp [dueAfter, s1, s2]
      unfold latest at hT ⊢
      rw [s1, this]
      exact hT
  · have hdue : t'.due = now + 10000 := by
      rw [h2]
      unfold dueAfter
      have : t'.c.st ≠ t.c.st ∨ isTimer e = true := by
        rcases s3 with s3 | s3
        · left; rw [s1, s3]; simp
        · right; exact s3
      rw [if_pos ⟨s2, this⟩, s1]
      rfl
    cases k with
    | zero =>
      rw [s4] at hk
      simp at hk
      subst hk
      rcases s6 with s6 | ⟨s6, s7⟩
      · left; rw [s6, hp]; simp
      · exact Or.inr (Or.inr ⟨s6, by rw [s5, s4]; rfl, s7⟩)
    | succ k =>
      refine Or.inr (Or.inl ⟨Or.inl s1, k, p, ?_, hp, ?_⟩)
      · rw [s5]
        rw [s4] at hk
        simpa using hk
      · have hm : (k + 1) * share late = k * share late + share late := Nat.succ_mul _ _
        have hS : share late = 5010000 + 2 * late := rfl
        unfold latest at hT ⊢
        rw [s1]
        simp only []
        rw [hm] at hT
        generalize hX : k * share late = X at hT ⊢
        split at hT <;> omega
  · refine Or.inr (Or.inl ⟨Or.inr s2, k, p, by rw [s5]; exact hk, hp, ?_⟩)
    have hdue : t'.due = now + 5000000 := by
      rw [h2]
      unfold dueAfter
      rw [if_pos ⟨s3, Or.inr s4⟩, s2]
      rfl
    unfold latest at hT ⊢
    rw [s1] at hT
    rw [s2]
    simp only [] at hT ⊢
    generalize hX : k * share late = X at hT ⊢
    omega
  · left
    rw [← hp]
    exact s2 p (List.mem_of_getElem? hk)

theorem run_cons {t t2 : Timed} {now : Nat} {e : Ev} {es : List (Nat × Ev)} {tr : List (Nat × CSt × List COut)}
    (h : t.run ((now, e) :: es) = .ok (t2, tr)) :
    ∃ t1 o os, t.step now e = .ok (t1, o) ∧ t1.run es = .ok (t2, os) ∧ tr = (now, t1.c.st, o) :: os := by
  obtain ⟨⟨t1, o⟩, h1, h⟩ := Exec.bind_eq_ok.1 h
  obtain ⟨⟨t3, os⟩, h2, h⟩ := Exec.bind_eq_ok.1 h
  cases h
  exact ⟨t1, o, os, h1, h2, rfl⟩

/-- Data arrive only for requests that were sent, and no header announces a frame that is too long (as in C14). -/
def Orderly (t : Timed) (es : List (Nat × Ev)) : Prop := Client.Orderly t.c (es.map Prod.snd)

theorem waits_run {late : Nat} {x : Nat × Nat} {T : Nat} : ∀ {es : List (Nat × Ev)} {last : Nat} {t t2 : Timed}
    {tr : List (Nat × CSt × List COut)}, Inv t.c → CallersOk (es.map Prod.snd) → t.Orderly es → OnTime late last t es →
    t.Waits late x T → t.run es = .ok (t2, tr) →
    (∃ y ∈ tr, last ≤ y.1 ∧ y.1 ≤ T ∧ x ∈ ids y.2.2) ∨ t2.Waits late x T := by
  intro es
  induction es with
  | nil =>
    intro last t t2 tr _ _ _ _ hw h
    cases h
    exact Or.inr hw
  | cons y es ih =>
    obtain ⟨now, e⟩ := y
    intro last t t2 tr hi he ho hot hw h
    obtain ⟨t1, o, os, h1, h2, rfl⟩ := run_cons h
    obtain ⟨o1, o2, o3, o4⟩ := hot
    rw [h1] at o4
    have hst := (step_ok h1).1
    have hi1 := (step_spec hi (he e (by simp)) hst).1
    obtain ⟨w1, w2⟩ := waits_step hi hw o2 (fun hh => (o3 hh).1) h1
    have ho1 : OrderlyEv t.c e ∧ t1.Orderly es := by
      have := ho
      simp only [Orderly, List.map_cons, Client.Orderly, hst] at this
      exact this
    rcases w2 with w2 | w2 | ⟨w2, w3, rx, rfl⟩
    · exact Or.inl ⟨(now, t1.c.st, o), by simp, o1, w1, w2⟩
    · rcases ih hi1 (fun z hz => he z (by simp [hz])) ho1.2 o4 w2 h2 with ⟨y, y1, y2, y3, y4⟩ | hh
      · exact Or.inl ⟨y, by simp [y1], by omega, y3, y4⟩
      · exact Or.inr hh
    · exfalso
      have := orderly_account hi ho1.1 hst
      rw [w2, w3] at this
      have hl := congrArg List.length this
      have hne : t.c.pending ≠ [] := by
        obtain ⟨_, k, p, hk, _⟩ := hw
        intro hh
        simp [hh] at hk
      have := List.length_pos_iff.2 hne
      simp at hl
      omega

theorem waits_now {late : Nat} {x : Nat × Nat} {T now : Nat} {t : Timed} (hi : Inv t.c) (hw : t.Waits late x T)
    (ha : t.Awake late now) : now ≤ T := by
  obtain ⟨hb, k, p, hk, hp, hT⟩ := hw
  have hd := ha (hi.armed hb)
  unfold latest at hT
  split at hT <;> omega

/-- A client as it is created, at time 0. -/
def create (m : Mem) : Timed := ⟨Client.create m, 0⟩

theorem reach_inv : ∀ {es : List (Nat × Ev)} {late last : Nat} {t t2 : Timed} {tr : List (Nat × CSt × List COut)},
    Inv t.c → t.Near last → CallersOk (es.map Prod.snd) → OnTime late last t es → t.run es = .ok (t2, tr) →
    Inv t2.c ∧ t2.Near (lastOf last es) := by
  intro es
  induction es with
  | nil =>
    intro late last t t2 tr hi hn _ _ h
    cases h
    exact ⟨hi, hn⟩
  | cons y es ih =>
    obtain ⟨now, e⟩ := y
    intro late last t t2 tr hi hn he hot h
    obtain ⟨t1, o, os, h1, h2, rfl⟩ := run_cons h
    obtain ⟨o1, o2, o3, o4⟩ := hot
    rw [h1] at o4
    have hi1 := (step_spec hi (he e (by simp)) (step_ok h1).1).1
    exact ih hi1 (near_step hn o1 hi1 h1) (fun z hz => he z (by simp [hz])) o4 h2

end Timed

/-- C76 (`_partial`: while bytes arrive only for requests that were sent and no header announces a frame that is too long, see
`C14_lost_answer_violated`).  A request given to the client at time `t0` behind `n` others is answered, with success or failure,
`(n + 1) · 5.01` seconds later at the latest, and within 64 times 5.01 seconds in any case; `late` is added for each of the two
timers of a request.  This holds for every history before and after, whatever the peer does and system calls return; `now` is any
time at which no timer is overdue. -/
theorem C76_answered_in_time_partial (late : Nat) (m : Mem) (es1 es2 : List (Nat × Ev)) (t0 now : Nat) (r : CallerReq)
    (he : CallersOk ((es1 ++ (t0, .req r) :: es2).map Prod.snd)) (t1 t2 : Timed) (tr1 tr2 : List (Nat × CSt × List COut))
    (h1 : (Timed.create m).run es1 = .ok (t1, tr1)) (h2 : t1.run ((t0, .req r) :: es2) = .ok (t2, tr2))
    (ho : t1.Orderly ((t0, .req r) :: es2)) (hot1 : Timed.OnTime late 0 (Timed.create m) es1)
    (hot2 : Timed.OnTime late (lastOf 0 es1) t1 ((t0, .req r) :: es2)) (hnow : t2.Awake late now)
    (hlong : t0 + (t1.c.pending.length + 1) * share late < now) :
    ∃ y ∈ tr2, t0 ≤ y.1 ∧ y.1 ≤ t0 + min (t1.c.pending.length + 1) 64 * share late ∧ rid r ∈ ids y.2.2 := by
  obtain ⟨hi1, hn1⟩ := Timed.reach_inv (t := Timed.create m) (inv_create m) (fun hh => absurd rfl hh)
    (fun z hz => he z (by simp only [List.map_append, List.mem_append]; exact Or.inl hz)) hot1 h1
  obtain ⟨t3, o, os, g1, g2, rfl⟩ := Timed.run_cons h2
  obtain ⟨o1, o2, o3, o4⟩ := hot2
  rw [g1] at o4
  have hst := (Timed.step_ok g1).1
  have hcr : CallerOk r := he (.req r) (by simp)
  have hi3 := (step_spec (e := .req r) hi1 hcr hst).1
  have hcs : CallersOk (es2.map Prod.snd) := fun z hz =>
    he z (by simp only [List.map_append, List.map_cons, List.mem_append, List.mem_cons]; exact Or.inr (Or.inr hz))
  have hn1' : t1.Near t0 := fun a b => by
    have := hn1 a b
    omega
  rcases Timed.req_waits (late := late) hi1 hn1' g1 with hx | ⟨h64, hx⟩
  · exact ⟨(t0, t3.c.st, o), by simp, Nat.le_refl _, by simp, hx⟩
  · rw [Nat.min_eq_left (by omega)]
    have ho3 : t3.Orderly es2 := by
      have := ho
      simp only [Timed.Orderly, List.map_cons, Client.Orderly, hst] at this
      exact this.2
    rcases Timed.waits_run hi3 hcs ho3 o4 hx g2 with ⟨y, y1, y2, y3, y4⟩ | hw
    · exact ⟨y, by simp [y1], y2, y3, y4⟩
    · have hi2 : Inv t2.c := (Timed.reach_inv (last := t0) hi3 (Timed.near_step hn1' (Nat.le_refl _) hi3 g1) hcs o4 g2).1
      have := Timed.waits_now hi2 hw hnow
      omega

/-! ## The client tries again -/

theorem backoff_step {c c' : Client} {e : Ev} {o : List COut} (hs : c.st = .backoff) (ht : isTimer e = true → c.timer = true)
    (h : c.step e = .ok (c', o)) : (c'.st = .backoff ∧ isTimer e = false) ∨ c'.st = .connect := by
  cases e with
  | start ok => simp only [step, hs] at h; cases h; exact Or.inl ⟨hs, rfl⟩
  | connected => simp only [step, onConnected, onError, hs, ite_self] at h; cases h; exact Or.inl ⟨hs, rfl⟩
  | linkError => simp only [step, onError, hs] at h; cases h; exact Or.inl ⟨rfl, rfl⟩
  | data rx => simp only [step, onData, hs] at h; cases h; exact Or.inl ⟨hs, rfl⟩
  | req r =>
    simp only [step] at h
    obtain ⟨⟨l, ok⟩, h1, h⟩ := Exec.bind_eq_ok.1 h
    dsimp only at h
    cases ok
    · cases h; exact Or.inl ⟨hs, rfl⟩
    · rw [if_pos rfl] at h
      simp only [onReq, hs] at h
      cases h
      exact Or.inl ⟨rfl, rfl⟩
  | timer a b =>
    simp only [step, ht rfl, if_true, onTimer, hs] at h
    cases h
    right
    simp [transit, enter]

theorem connect_step {c c' : Client} {e : Ev} {o : List COut} (hs : c.st = .connect) (ht : isTimer e = true → c.timer = true)
    (h : c.step e = .ok (c', o)) : (c'.st = .connect ∧ isTimer e = false) ∨ c'.st = .connected ∨ c'.st = .backoff := by
  cases e with
  | start ok => simp only [step, hs] at h; cases h; exact Or.inl ⟨hs, rfl⟩
  | connected =>
    simp only [step, onConnected, onError, hs] at h
    split at h
    · cases h; right; left; simp [transit, enter, hs]
    · cases h; right; right; simp [transit, enter, hs]
  | linkError => simp only [step, onError, hs] at h; cases h; right; right; simp [transit, enter]
  | data rx => simp only [step, onData, hs] at h; cases h; exact Or.inl ⟨hs, rfl⟩
  | req r =>
    simp only [step] at h
    obtain ⟨⟨l, ok⟩, h1, h⟩ := Exec.bind_eq_ok.1 h
    dsimp only at h
    cases ok
    · cases h; exact Or.inl ⟨hs, rfl⟩
    · rw [if_pos rfl] at h
      simp only [onReq, hs] at h
      cases h
      exact Or.inl ⟨rfl, rfl⟩
  | timer a b =>
    simp only [step, ht rfl, if_true, onTimer, hs] at h
    cases h
    right
    right
    simp [transit, enter]

/-- A state that is left by its timer at the latest is left in time. -/
theorem leaves_in_time {late : Nat} {st : CSt} {T : Nat} {Q : CSt → Prop} (h0 : st ≠ .init) (h0' : st ≠ .connected)
    (hst : ∀ {c c' : Client} {e : Ev} {o : List COut}, c.st = st → (isTimer e = true → c.timer = true) →
      c.step e = .ok (c', o) → (c'.st = st ∧ isTimer e = false) ∨ Q c'.st) :
    ∀ {es : List (Nat × Ev)} {last : Nat} {t t2 : Timed} {tr : List (Nat × CSt × List COut)} {now : Nat}, Inv t.c →
    CallersOk (es.map Prod.snd) → Timed.OnTime late last t es → t.c.st = st → t.due + late ≤ T →
    t.run es = .ok (t2, tr) → t2.Awake late now → T < now →
    ∃ tr1 at' s o tr2, tr = tr1 ++ (at', s, o) :: tr2 ∧ last ≤ at' ∧ at' ≤ T ∧ Q s ∧ ∀ z ∈ tr1, z.2.1 = st := by
  intro es
  induction es with
  | nil =>
    intro last t t2 tr now hi _ _ hs hT h hnow hlong
    cases h
    have := hnow (Timed.armed_of hi (by rw [hs]; exact h0) (by rw [hs]; exact h0'))
    omega
  | cons y es ih =>
    obtain ⟨at0, e⟩ := y
    intro last t t2 tr now hi he hot hs hT h hnow hlong
    obtain ⟨t1, o, os, h1, h2, rfl⟩ := Timed.run_cons h
    obtain ⟨o1, o2, o3, o4⟩ := hot
    rw [h1] at o4
    obtain ⟨hc, hd⟩ := Timed.step_ok h1
    have hat := o2 (Timed.armed_of hi (by rw [hs]; exact h0) (by rw [hs]; exact h0'))
    rcases hst hs (fun hh => (o3 hh).1) hc with ⟨k1, k2⟩ | k
    · have hdue : t1.due = t.due := by
        rw [hd]
        simp [Timed.dueAfter, k1, k2, hs]
      obtain ⟨tr1, a', s', o', tr2, rfl, z2, z3, z4, z5⟩ := ih (step_spec hi (he e (by simp)) hc).1
        (fun z hz => he z (by simp [hz])) o4 k1 (by rw [hdue]; exact hT) h2 hnow hlong
      refine ⟨(at0, t1.c.st, o) :: tr1, a', s', o', tr2, rfl, by omega, z3, z4, ?_⟩
      intro z hz
      rcases List.mem_cons.1 hz with rfl | hz
      · exact k1
      · exact z5 z hz
    · exact ⟨[], at0, t1.c.st, o, os, rfl, o1, by omega, k, by simp⟩

/-- C76: the client, in any history, does not wait before the next attempt to connect for longer than half a second. -/
theorem C76_tries_again (late : Nat) (m : Mem) (es1 es2 : List (Nat × Ev)) (now : Nat)
    (he : CallersOk ((es1 ++ es2).map Prod.snd)) (t1 t2 : Timed) (tr1 tr2 : List (Nat × CSt × List COut))
    (h1 : (Timed.create m).run es1 = .ok (t1, tr1)) (h2 : t1.run es2 = .ok (t2, tr2))
    (hot1 : Timed.OnTime late 0 (Timed.create m) es1) (hot2 : Timed.OnTime late (lastOf 0 es1) t1 es2)
    (hs : t1.c.st = .backoff) (hnow : t2.Awake late now) (hlong : lastOf 0 es1 + 500000 + late < now) :
    ∃ pre at' o post, tr2 = pre ++ (at', .connect, o) :: post ∧ at' ≤ lastOf 0 es1 + 500000 + late ∧
      ∀ z ∈ pre, z.2.1 = .backoff := by
  obtain ⟨hi1, hn1⟩ := Timed.reach_inv (t := Timed.create m) (inv_create m) (fun hh => absurd rfl hh)
    (fun z hz => he z (by simp only [List.map_append, List.mem_append]; exact Or.inl hz)) hot1 h1
  have hd := hn1 (by simp [hs]) (by simp [hs])
  simp only [hs, interval] at hd
  obtain ⟨pre, a', s', o', post, k1, _, k3, rfl, k5⟩ := leaves_in_time (late := late) (st := .backoff) (Q := (· = .connect))
    (T := lastOf 0 es1 + 500000 + late) (by simp) (by simp) backoff_step hi1
    (fun z hz => he z (by simp only [List.map_append, List.mem_append]; exact Or.inr hz)) hot2 hs (by omega) h2 hnow hlong
  exact ⟨pre, a', o', post, k1, k3, k5⟩

/-- C76: an attempt to connect ends within three seconds, with a connection or in the state of waiting for the next. -/
theorem C76_attempt_ends (late : Nat) (m : Mem) (es1 es2 : List (Nat × Ev)) (now : Nat)
    (he : CallersOk ((es1 ++ es2).map Prod.snd)) (t1 t2 : Timed) (tr1 tr2 : List (Nat × CSt × List COut))
    (h1 : (Timed.create m).run es1 = .ok (t1, tr1)) (h2 : t1.run es2 = .ok (t2, tr2))
    (hot1 : Timed.OnTime late 0 (Timed.create m) es1) (hot2 : Timed.OnTime late (lastOf 0 es1) t1 es2)
    (hs : t1.c.st = .connect) (hnow : t2.Awake late now) (hlong : lastOf 0 es1 + 3000000 + late < now) :
    ∃ pre at' s o post, tr2 = pre ++ (at', s, o) :: post ∧ at' ≤ lastOf 0 es1 + 3000000 + late ∧
      (s = .connected ∨ s = .backoff) ∧ ∀ z ∈ pre, z.2.1 = .connect := by
  obtain ⟨hi1, hn1⟩ := Timed.reach_inv (t := Timed.create m) (inv_create m) (fun hh => absurd rfl hh)
    (fun z hz => he z (by simp only [List.map_append, List.mem_append]; exact Or.inl hz)) hot1 h1
  have hd := hn1 (by simp [hs]) (by simp [hs])
  simp only [hs, interval] at hd
  obtain ⟨pre, a', s', o', post, k1, _, k3, k4, k5⟩ := leaves_in_time (late := late) (st := .connect)
    (Q := fun s => s = .connected ∨ s = .backoff) (T := lastOf 0 es1 + 3000000 + late) (by simp) (by simp) connect_step hi1
    (fun z hz => he z (by simp only [List.map_append, List.mem_append]; exact Or.inr hz)) hot2 hs (by omega) h2 hnow hlong
  exact ⟨pre, a', s', o', post, k1, k3, k4, k5⟩

/-- What can happen to a client without requests and without a link that works. -/
def Dead : Ev → Prop
  | .start _ | .connected | .linkError | .timer _ _ => True
  | _ => False

/-- A connected client without requests whose link is dead keeps its state. -/
theorem dead_run {es : List Ev} (hd : ∀ x ∈ es, Dead x) : ∀ {c : Client}, c.st = .connected → ∃ c' tr,
    c.run es = .ok (c', tr) ∧ c'.st = .connected ∧ c'.pending = c.pending ∧ (c.opened = false ∨ .linkError ∈ es → c'.opened = false) ∧
    ∀ x ∈ tr, x.2 = [] := by
  induction es with
  | nil => intro c hs; exact ⟨c, [], rfl, hs, rfl, by simp, by simp⟩
  | cons e es ih =>
    intro c hs
    have hstep : ∃ c1, c.step e = .ok (c1, []) ∧ c1.st = .connected ∧ c1.pending = c.pending ∧
        (c.opened = false ∨ e = .linkError → c1.opened = false) := by
      have hde := hd e (by simp)
      cases e with
      | start ok => exact ⟨c, by simp only [step, hs], hs, rfl, by simp⟩
      | connected => exact ⟨c, by simp only [step, onConnected, onError, hs, ite_self], hs, rfl, by simp⟩
      | linkError => exact ⟨{ c with opened := false }, by simp only [step, onError, hs], hs, rfl, fun _ => rfl⟩
      | timer a b =>
        by_cases ht : c.timer = true
        · exact ⟨{ c with timer := false }, by simp only [step, ht, if_true, onTimer, hs], hs, rfl, by simp⟩
        · exact ⟨c, by simp only [step, if_neg ht], hs, rfl, by simp⟩
      | data rx => exact hde.elim
      | req r => exact hde.elim
    obtain ⟨c1, h1, h2, h3, h4⟩ := hstep
    obtain ⟨c2, tr, k1, k2, k3, k4, k5⟩ := ih (fun x hx => hd x (by simp [hx])) h2
    refine ⟨c2, (e, []) :: tr, by simp [run, h1, k1], k2, by rw [k3, h3], fun hh => k4 ?_, ?_⟩
    · rcases hh with hh | hh
      · exact Or.inl (h4 (Or.inl hh))
      · rcases List.mem_cons.1 hh with hh | hh
        · exact Or.inl (h4 (Or.inr hh.symm))
        · exact Or.inr hh
    intro x hx
    rcases List.mem_cons.1 hx with rfl | hx
    · rfl
    · exact k5 x hx

/-- Violation of C76: a connected client without waiting requests whose link fails, or whose peer closes the connection, never
tries again, however long it takes and whatever happens apart from requests. -/
theorem C76_lost_link_violated (m : Mem) (es : List Ev) (he : CallersOk es) (c : Client) (tr : Trace)
    (h : (create m).run es = .ok (c, tr)) (hs : c.st = .connected) (e : Ev) (hl : e = .linkError ∨ e = .data (.ok []))
    (hop : c.opened = true) (es' : List Ev) (hd : ∀ x ∈ es', Dead x) :
    ∃ c' tr', c.run (e :: es') = .ok (c', tr') ∧ c'.st = .connected ∧ ∀ x ∈ tr', x.2 = [] := by
  have hi := run_inv (inv_create m) he h
  have hp := hi.idle (by simp [busy, hs])
  have h1 : ∃ c1, c.step e = .ok (c1, []) ∧ c1.st = .connected := by
    rcases hl with rfl | rfl
    · exact ⟨{ c with opened := false }, by simp only [step, onError, hs], hs⟩
    · simp only [step, onData, hs, receive, hop, hp]
      split
      · exact ⟨_, rfl, hs⟩
      · exact ⟨_, rfl, rfl⟩
  obtain ⟨c1, h1, h2⟩ := h1
  obtain ⟨c2, tr2, k1, k2, _, _, k5⟩ := dead_run hd h2
  refine ⟨c2, (e, []) :: tr2, by simp [run, h1, k1], k2, ?_⟩
  intro x hx
  rcases List.mem_cons.1 hx with rfl | hx
  · rfl
  · exact k5 x hx

/-- Violation of C76, consequence: the first request after a failure of the link is answered with failure and is never sent,
however long ago the failure was. -/
theorem C76_first_request_violated (m : Mem) (es : List Ev) (he : CallersOk es) (c : Client) (tr : Trace)
    (h : (create m).run es = .ok (c, tr)) (hs : c.st = .connected) (es' : List Ev) (hd : ∀ x ∈ es', Dead x) (r : CallerReq)
    (hr : CallerOk r) (a b : Bool) :
    ∃ c' tr', c.run (.linkError :: es' ++ [.req r, .timer a b]) = .ok (c', tr') ∧
      tr'.flatMap Prod.snd = [rspError r.clientId r.transactId] := by
  have hi := run_inv (inv_create m) he h
  have hp := hi.idle (by simp [busy, hs])
  obtain ⟨c2, tr2, k1, k2, k3, k4, k5⟩ := dead_run (es := .linkError :: es') (by
    intro x hx
    rcases List.mem_cons.1 hx with rfl | hx
    · trivial
    · exact hd x hx) hs
  have hop : c2.opened = false := k4 (Or.inr (by simp))
  have hsil : tr2.flatMap Prod.snd = [] := by
    simp only [List.flatMap_eq_nil_iff]
    exact k5
  rw [hp] at k3
  obtain ⟨d, hd1, hd2⟩ := id hr
  have hC : AduStorage.capacity = 64 := rfl
  have hA : maxAduLen = 260 := rfl
  rw [run_append k1]
  by_cases hn : r.numBytes ≤ 260
  · have hpo := pendingOk_of hr hn
    have s1 : c2.step (.req r) = .ok ({ c2 with st := .send, pending := [pendingOf r], timer := true }, []) := by
      simp [step, storePush, k3, hC, hA, hn, hd1, hd2, onReq, k2, transit, enter, exit]
    have s2 : ∃ c3, ({ c2 with st := .send, pending := [pendingOf r], timer := true } : Client).step (.timer a b)
        = .ok (c3, [rspError r.clientId r.transactId]) := by
      have q1 : (pendingOf r).clientId = r.clientId := rfl
      have q2 : (pendingOf r).transactId = r.transactId := rfl
      rw [← q1, ← q2]
      clear s1
      generalize pendingOf r = p at hpo
      obtain ⟨bf, ok, he', _⟩ := encodeReq_eq (fun _ => 0) (reqOfPending p)
        (by simp [reqOfPending, hpo.1]) (by simpa [reqOfPending] using hpo.2)
      cases ok <;> simp [step, onTimer, send_body, he', hop, fail, drain]
    obtain ⟨c3, s2⟩ := s2
    exact ⟨c3, _, by rw [run, s1]; simp only [Exec.ok_bind, run, s2]; rfl, by simp [hsil]⟩
  · have s1 : c2.step (.req r) = .ok (c2, [rspError r.clientId r.transactId]) := by
      simp [step, storePush, hA, hn]
    have s2 : ∃ c3, c2.step (.timer a b) = .ok (c3, []) := by
      by_cases ht : c2.timer = true
      · exact ⟨{ c2 with timer := false }, by simp only [step, ht, if_true, onTimer, k2]⟩
      · exact ⟨c2, by simp only [step, if_neg ht]⟩
    obtain ⟨c3, s2⟩ := s2
    exact ⟨c3, _, by rw [run, s1]; simp only [Exec.ok_bind, run, s2]; rfl, by simp [hsil]⟩

/-! Examples.  Two requests to a peer that never answers: the bound is reached exactly if the timers are never late. -/

/-- The identifiers answered, with the time. -/
def answersAt (es : List (Nat × Ev)) : Option (List (Nat × Nat)) :=
  match (Timed.create fun _ => 0).run es with
  | .ok (_, tr) => some (tr.flatMap fun x => (ids x.2.2).map fun y => (x.1, y.2))
  | _ => none

instance Timed.onTimeDecidable (late : Nat) : (es : List (Nat × Ev)) → (last : Nat) → (t : Timed) →
    Decidable (Timed.OnTime late last t es)
  | [], _, _ => isTrue trivial
  | (now, e) :: es, last, t =>
    if h : last ≤ now ∧ (t.c.timer = true → now ≤ t.due + late) ∧ (isTimer e = true → t.c.timer = true ∧ t.due ≤ now) then
      match hs : t.step now e with
      | .ok (t', _) =>
        match Timed.onTimeDecidable late es now t' with
        | isTrue h1 => isTrue ⟨h.1, h.2.1, h.2.2, by rw [hs]; exact h1⟩
        | isFalse h1 => isFalse fun x => h1 (by have := x.2.2.2; rw [hs] at this; exact this)
      | .throws => isTrue ⟨h.1, h.2.1, h.2.2, by rw [hs]; trivial⟩
      | .abort => isTrue ⟨h.1, h.2.1, h.2.2, by rw [hs]; trivial⟩
      | .ub => isTrue ⟨h.1, h.2.1, h.2.2, by rw [hs]; trivial⟩
    else isFalse fun x => h ⟨x.1, x.2.1, x.2.2.1⟩

def silentPeer : List (Nat × Ev) :=
  [(0, .start true), (7, .connected), (100, .req (sampleCall 5)), (100, .req (sampleCall 6)), (10100, .timer true true),
   (5010100, .timer true true), (5020100, .timer true true), (10020100, .timer true true)]

example : answersAt silentPeer = some [(5010100, 5), (10020100, 6)] ∧ 100 + 2 * share 0 = 10020100 := by decide +kernel

example : CallersOk (silentPeer.map Prod.snd) ∧ Timed.OnTime 0 0 (Timed.create fun _ => 0) silentPeer ∧
    (Timed.create fun _ => 0).Orderly silentPeer := by
  refine ⟨?_, ?_, ?_⟩
  · intro e he
    simp only [silentPeer, List.map_cons, List.map_nil, List.mem_cons, List.not_mem_nil, or_false] at he
    rcases he with rfl | rfl | rfl | rfl | rfl | rfl | rfl | rfl <;> simp [EvOk, CallerOk, sampleCall]
  · decide +kernel
  · unfold Timed.Orderly
    decide +kernel

/-- A refused connection: attempts at 0, and again half a second after each failure. -/
def statesAt (es : List (Nat × Ev)) : Option (List (Nat × CSt)) :=
  match (Timed.create fun _ => 0).run es with
  | .ok (_, tr) => some (tr.map fun x => (x.1, x.2.1))
  | _ => none

example : statesAt [(0, .start true), (3000000, .timer true true), (3500000, .timer true true), (3500100, .linkError),
    (4000100, .timer true true), (4000500, .connected), (9000000, .linkError), (99000000, .linkError)] =
    some [(0, .connect), (3000000, .backoff), (3500000, .connect), (3500100, .backoff), (4000100, .connect),
      (4000500, .connected), (9000000, .connected), (99000000, .connected)] := by decide +kernel

end Client

namespace Session

/-! ## A session whose peer is silent ends -/

/-- What a session does when it gets no bytes. -/
theorem silent_step {s s1 : Session} {e : Ev} {o : List SOut} (h : Holds s) (hs : s.step e = .ok (s1, o))
    (hst : s.st ≠ .init) (hq : ∀ rx, e ≠ .data rx) :
    s1.st = .init ∨ (s1.st = s.st ∧ isTimer e = false) ∨ (s.st = .wait ∧ s1.st = .connected) := by
  have hh := h.2 hst
  have hst : s.st = .connected ∨ s.st = .wait := by
    cases hx : s.st
    · exact absurd hx hst
    · exact Or.inl rfl
    · exact Or.inr rfl
  cases e with
  | start =>
    rcases hst with hi | hi <;> (simp only [step, onStart, hi] at hs; cases hs; right; left; simp [hi, isTimer])
  | linkError => simp only [step] at hs; cases hs; exact Or.inr (Or.inl ⟨rfl, rfl⟩)
  | timer =>
    simp only [step, hh.2.2, if_true] at hs
    rcases hst with hi | hi
    · left
      simp only [onTimer, hi] at hs
      rw [transit_init (s := { s with st := .connected, armed := false }) (by simp) hh.2.1] at hs
      cases hs
      rfl
    · right; right
      simp only [onTimer, hi] at hs
      rw [transit_connected (s := { s with st := .wait, armed := false }) (by simp) hh.2.1] at hs
      cases hs
      exact ⟨hi, rfl⟩
  | rsp r ok =>
    simp only [step] at hs
    rcases hst with hi | hi
    · simp only [onRsp, hi] at hs
      cases hs
      exact Or.inr (Or.inl ⟨rfl, rfl⟩)
    · simp only [onRsp, hi] at hs
      rw [Exec.bind_eq_ok] at hs
      obtain ⟨⟨o2, res⟩, g1, g2⟩ := hs
      cases res
      all_goals dsimp only at g2
      case noerror | codecError => cases g2; exact Or.inr (Or.inl ⟨rfl, rfl⟩)
      case done =>
        rw [transit_connected (by rw [hi]; simp) hh.2.1] at g2
        cases g2
        exact Or.inr (Or.inr ⟨hi, rfl⟩)
      case error =>
        rw [transit_init (by rw [hi]; simp) hh.2.1] at g2
        cases g2
        exact Or.inl rfl
  | data rx => exact absurd rfl (hq rx)

namespace Timed

theorem step_ok {t t' : Timed} {now : Nat} {e : Ev} {o : List SOut} (h : t.step now e = .ok (t', o)) :
    t.s.step e = .ok (t'.s, o) ∧ t'.due = t.dueAfter now e t'.s := by
  unfold step at h
  split at h
  · rename_i c' o' hc
    cases h
    exact ⟨hc, rfl⟩
  · cases h
  · cases h
  · cases h

theorem run_cons {t t2 : Timed} {now : Nat} {e : Ev} {es : List (Nat × Ev)} {tr : List (Nat × List SOut)}
    (h : t.run ((now, e) :: es) = .ok (t2, tr)) :
    ∃ t1 o os, t.step now e = .ok (t1, o) ∧ t1.run es = .ok (t2, os) ∧ tr = (now, o) :: os := by
  obtain ⟨⟨t1, o⟩, h1, h⟩ := Exec.bind_eq_ok.1 h
  obtain ⟨⟨t3, os⟩, h2, h⟩ := Exec.bind_eq_ok.1 h
  cases h
  exact ⟨t1, o, os, h1, h2, rfl⟩

/-- The timer is due within one interval. -/
def Near (t : Timed) (now : Nat) : Prop := t.s.st ≠ .init → t.due ≤ now + interval t.s.st

theorem near_step {t t' : Timed} {last now : Nat} {e : Ev} {o : List SOut} (hn : t.Near last) (hl : last ≤ now)
    (hi : Holds t'.s) (h : t.step now e = .ok (t', o)) : t'.Near now := by
  obtain ⟨h1, h2⟩ := step_ok h
  intro n1
  have ha := (hi.2 n1).2.2
  rw [h2]
  unfold dueAfter
  split
  · exact Nat.le_refl _
  · rename_i hx
    have hs : t'.s.st = t.s.st := by
      apply Classical.byContradiction
      intro hs
      exact hx ⟨ha, Or.inl hs⟩
    rw [hs] at n1 ⊢
    have := hn n1
    omega

/-- A session as it is created, at time 0. -/
def create (m : Mem) (a : AduReq) : Timed := ⟨Session.create m a, 0⟩

/-- Time of the last event. -/
def lastOf (last : Nat) : List (Nat × Ev) → Nat
  | [] => last
  | (now, _) :: es => lastOf now es

theorem reach_inv : ∀ {es : List (Nat × Ev)} {late last : Nat} {t t2 : Timed} {tr : List (Nat × List SOut)},
    Holds t.s → t.Near last → OnTime late last t es → t.run es = .ok (t2, tr) →
    Holds t2.s ∧ t2.Near (lastOf last es) := by
  intro es
  induction es with
  | nil =>
    intro late last t t2 tr hi hn _ h
    cases h
    exact ⟨hi, hn⟩
  | cons y es ih =>
    obtain ⟨now, e⟩ := y
    intro late last t t2 tr hi hn hot h
    obtain ⟨t1, o, os, h1, h2, rfl⟩ := run_cons h
    obtain ⟨o1, o2, o3, o4⟩ := hot
    rw [h1] at o4
    have hi1 := (step_holds hi (step_ok h1).1).1
    exact ih hi1 (near_step hn o1 hi1 h1) o4 h2

/-- The latest time at which a session without input ends. -/
def latest (late : Nat) (t : Timed) : Nat :=
  match t.s.st with
  | .wait => t.due + late + (30000000 + late)
  | _ => t.due + late

theorem ends_in_time {late T : Nat} : ∀ {es : List (Nat × Ev)} {last : Nat} {t t2 : Timed}
    {tr : List (Nat × List SOut)} {now : Nat}, Holds t.s → OnTime late last t es → t.s.st ≠ .init → t.latest late ≤ T →
    (∀ x ∈ es, ∀ rx, x.2 ≠ .data rx) → t.run es = .ok (t2, tr) → t2.Awake late now → T < now →
    ∃ y ∈ tr, y.1 ≤ T ∧ .released ∈ y.2 := by
  intro es
  induction es with
  | nil =>
    intro last t t2 tr now hi _ hs hT _ h hnow hlong
    cases h
    have := hnow (hi.2 hs).2.2
    unfold latest at hT
    split at hT <;> omega
  | cons y es ih =>
    obtain ⟨at0, e⟩ := y
    intro last t t2 tr now hi hot hs hT hq h hnow hlong
    obtain ⟨t1, o, os, h1, h2, rfl⟩ := run_cons h
    obtain ⟨o1, o2, o3, o4⟩ := hot
    rw [h1] at o4
    obtain ⟨hc, hd⟩ := step_ok h1
    have hat := o2 (hi.2 hs).2.2
    obtain ⟨hi1, hrel, _⟩ := step_holds hi hc
    have hle : at0 ≤ T := by
      unfold latest at hT
      split at hT <;> omega
    have hgo : t1.s.st ≠ .init → t1.latest late ≤ T → ∃ y ∈ (at0, o) :: os, y.1 ≤ T ∧ .released ∈ y.2 := by
      intro k1 k2
      obtain ⟨y, y1, y2⟩ := ih hi1 o4 k1 k2 (fun x hx => hq x (by simp [hx])) h2 hnow hlong
      exact ⟨y, by simp [y1], y2⟩
    rcases silent_step hi hc hs (hq (at0, e) (by simp)) with k | ⟨k1, k2⟩ | ⟨k1, k2⟩
    · exact ⟨(at0, o), by simp, hle, hrel.1.2 ⟨hs, k⟩⟩
    · have hdue : t1.due = t.due := by
        rw [hd]
        simp [dueAfter, k1, k2]
      refine hgo (by rw [k1]; exact hs) ?_
      unfold latest at hT ⊢
      rw [k1, hdue]
      exact hT
    · have hdue : t1.due = at0 + 30000000 := by
        rw [hd]
        unfold dueAfter
        rw [if_pos ⟨(hi1.2 (by rw [k2]; simp)).2.2, Or.inl (by rw [k1, k2]; simp)⟩, k2]
        rfl
      refine hgo (by rw [k2]; simp) ?_
      unfold latest at hT ⊢
      rw [k1] at hT
      rw [k2]
      simp only [] at hT ⊢
      omega

end Timed

/-- C76: whatever happened before, a session that gets no more bytes ends and gives back what it holds within 35 seconds (the
time for an answer of the application and the time of inactivity), with `late` added for the two timers, whatever the application
does. -/
theorem C76_session_ends (late : Nat) (m : Mem) (a : AduReq) (es1 es2 : List (Nat × Ev)) (now : Nat) (t1 t2 : Timed)
    (tr1 tr2 : List (Nat × List SOut)) (h1 : (Timed.create m a).run es1 = .ok (t1, tr1)) (h2 : t1.run es2 = .ok (t2, tr2))
    (hot1 : Timed.OnTime late 0 (Timed.create m a) es1) (hot2 : Timed.OnTime late (Timed.lastOf 0 es1) t1 es2)
    (hs : t1.s.st ≠ .init) (hq : ∀ x ∈ es2, ∀ rx, x.2 ≠ .data rx) (hnow : t2.Awake late now)
    (hlong : Timed.lastOf 0 es1 + 35000000 + 2 * late < now) :
    ∃ y ∈ tr2, y.1 ≤ Timed.lastOf 0 es1 + 35000000 + 2 * late ∧ .released ∈ y.2 := by
  obtain ⟨hi1, hn1⟩ := Timed.reach_inv (t := Timed.create m a) (holds_create m a) (fun hh => absurd rfl hh) hot1 h1
  have hd := hn1 hs
  refine Timed.ends_in_time hi1 hot2 hs ?_ hq h2 hnow hlong
  unfold Timed.latest
  cases hx : t1.s.st
  · exact absurd hx hs
  · simp only [hx, interval] at hd ⊢
    omega
  · simp only [hx, interval] at hd ⊢
    omega

/-- The effects of a timed history. -/
def effectsAt (es : List (Nat × Ev)) : Option (List (Nat × List SOut)) :=
  let a : AduReq :=
    { clientId := 0, transactId := 0, func := 0, addr := 0, startItem := 0, numItems := 0, numBytes := 0,
      data := fun _ => 0, dataCap := 0 }
  match (Timed.create (fun _ => 0) a).run es with
  | .ok (_, tr) => some tr
  | _ => none

/-- A request that the application does not answer, and silence: the session ends after 35 seconds. -/
example : effectsAt [(0, .start), (1000, .data (.ok [0, 1, 0, 0, 0, 6, 9, 3, 0, 7, 0, 2])), (5001000, .timer), (35001000, .timer)] =
    some [(0, []), (1000, [.fwd ⟨1, 3, 9, 7, 2, 0, []⟩]), (5001000, []), (35001000, [.released])] := by decide +kernel

end Session

end Uscada.Modbus
