import Verif.Reactor
/-!
# C04: every accepted message is dispatched exactly once, in order
-/

namespace Uscada.Reactor

/-- Messages accepted by `send` during a schedule, computed from the schedule and the room in the
mailbox only (specification side). -/
def Quiet (s : State) : Prop :=
  s.unsignalled = 0 ∧ s.counter = 0 ∧ ∀ w ∈ s.workers, w = 0

/-- C04 (safety part).  In every interleaving of any number of senders and worker threads, with any
handlers throwing at any time, the dispatched messages are exactly a prefix of the accepted ones: no
message is dispatched twice, out of order, or without having been accepted; the rest still waits.  A
dispatched message ran a handler exactly when one is registered for its identifier. -/
theorem C04_dispatch_in_order (cap n : Nat) (handlers : Nat → Bool) (as : List Act) (s : State)
    (h : run (init cap n handlers) as = some s) :
    s.dispatched.map Prod.fst ++ s.waiting = s.accepted ∧
    (∀ p ∈ s.dispatched, p.2 = s.handlers p.1.msgId) ∧
    s.waiting.length ≤ s.cap := by
  have hi := inv_run as (inv_init cap n handlers) h
  exact ⟨hi.order, hi.flags, hi.bound⟩

/-- C04 (no lost wake-up; partial: as long as no handler threw and the reactor is not stopped).  When no
`send` is half-way, no wake-up is outstanding and every worker is idle, every accepted message has been
dispatched. -/
theorem C04_no_message_left_partial (cap n : Nat) (handlers : Nat → Bool) (as : List Act) (s : State)
    (h : run (init cap n handlers) as = some s) (hq : Quiet s)
    (ht : s.thrown = false) (hs : s.stopped = false) :
    s.waiting = [] ∧ s.dispatched.map Prod.fst = s.accepted := by
  have hi := inv_run as (inv_init cap n handlers) h
  have hsum : s.workers.sum = 0 := by
    have : ∀ l : List Nat, (∀ w ∈ l, w = 0) → l.sum = 0 := by
      intro l
      induction l with
      | nil => simp
      | cons x xs ih => intro hl; simp at hl; simp [hl.1]; exact ih hl.2
    exact this _ hq.2.2
  have hw : s.waiting = [] := by
    apply List.length_eq_zero_iff.1
    rw [hi.count, hsum, hq.1, hq.2.1, hi.noThrow ht hs]
  refine ⟨hw, ?_⟩
  have := hi.order
  rw [hw] at this
  simpa using this

/-- The same as a progress statement: as long as no handler threw and the reactor runs, whenever a
message waits, some non-sender or half-way-sender step is enabled (a pending signal, a wake-up or a
worker still looping), so the reactor is never stuck with waiting messages. -/
theorem C04_never_stuck_partial (cap n : Nat) (hn : 0 < n) (handlers : Nat → Bool) (as : List Act)
    (s : State) (h : run (init cap n handlers) as = some s) (ht : s.thrown = false)
    (hs : s.stopped = false) (hw : s.waiting ≠ []) :
    (step s .signal).isSome ∨ (∃ i, (step s (.wake i)).isSome) ∨
      (∃ i, ∀ t, (step s (.take i t)).isSome) := by
  have hi := inv_run as (inv_init cap n handlers) h
  by_cases h1 : 0 < s.unsignalled
  · left; simp [step, h1]
  right
  by_cases hall : ∀ w ∈ s.workers, w = 0
  · left
    have hq : 0 < s.counter := by
      rcases Nat.eq_zero_or_pos s.counter with h0 | h0
      · exact absurd (C04_no_message_left_partial cap n handlers as s h ⟨by omega, h0, hall⟩ ht hs).1 hw
      · exact h0
    have hlen : s.workers.length = n := by
      have : ∀ (as : List Act) (s s' : State), run s as = some s' →
          s'.workers.length = s.workers.length := by
        intro as
        induction as with
        | nil => intro s s' h; simp [run] at h; rw [h]
        | cons a as ih =>
          intro s s' h
          simp only [run, Option.bind_eq_some_iff] at h
          obtain ⟨s1, h2, h3⟩ := h
          rw [ih s1 s' h3]
          cases a <;> simp only [step] at h2 <;> (repeat' split at h2) <;> simp at h2 <;>
            subst h2 <;> simp
      simpa [init] using this as _ _ h
    have h0 : s.workers[0]? = some 0 := by
      have hl : 0 < s.workers.length := by omega
      rw [List.getElem?_eq_getElem hl, hall _ (List.getElem_mem hl)]
    exact ⟨0, by simp [step, h0, hq, hs]⟩
  · right
    obtain ⟨w, hw1, hw2⟩ : ∃ w, w ∈ s.workers ∧ w ≠ 0 := by
      rcases Classical.em (∃ w, w ∈ s.workers ∧ w ≠ 0) with he | he
      · exact he
      · exact absurd (fun w hm => Classical.byContradiction fun hne => he ⟨w, hm, hne⟩) hall
    obtain ⟨i, hi', rfl⟩ := List.mem_iff_getElem.1 hw1
    refine ⟨i, fun t => ?_⟩
    have hg : s.workers[i]? = some s.workers[i] := List.getElem?_eq_getElem hi'
    cases hk : s.workers[i] with
    | zero => exact absurd hk hw2
    | succ k =>
      rw [hk] at hg
      simp only [step, hg]
      cases hwait : s.waiting with
      | nil => exact absurd hwait hw
      | cons m rest => simp only; split <;> rfl

/-- The messages handed to `send` in a schedule, in order (specification side). -/
def sent : List Act → List Msg
  | [] => []
  | .store m :: as => m :: sent as
  | _ :: as => sent as

private theorem accepted_growth (as : List Act) : ∀ (s s' : State), Inv s → run s as = some s' →
    (∃ l, s'.accepted = s.accepted ++ l ∧ l.Sublist (sent as)) ∧
    (s.accepted.length + (sent as).length ≤ s.cap → s'.accepted = s.accepted ++ sent as) := by
  induction as with
  | nil => intro s s' _ h; simp [run] at h; subst h; simp [sent]
  | cons a as ih =>
    intro s s' hi h
    simp only [run, Option.bind_eq_some_iff] at h
    obtain ⟨s1, h1, h2⟩ := h
    have hi1 := inv_step hi h1
    obtain ⟨⟨l, hl1, hl2⟩, hl3⟩ := ih s1 s' hi1 h2
    have hsame : ∀ b, (∀ m, b ≠ .store m) → step s b = some s1 → s1.accepted = s.accepted ∧ s1.cap = s.cap := by
      intro b hb hst
      cases b with
      | store m => exact absurd rfl (hb m)
      | signal => simp only [step] at hst; split at hst <;> simp at hst; subst hst; simp
      | wake i =>
        simp only [step] at hst
        (repeat' split at hst) <;> simp at hst <;> subst hst <;> simp
      | take i t =>
        simp only [step] at hst
        (repeat' split at hst) <;> simp at hst <;> subst hst <;> simp
      | stop => simp [step] at hst; subst hst; simp
    by_cases hst : ∃ m, a = .store m
    · obtain ⟨m, rfl⟩ := hst
      simp only [step] at h1
      split at h1 <;> simp at h1 <;> subst h1
      · refine ⟨⟨m :: l, by simp [hl1], by simpa [sent] using hl2⟩, fun hc => ?_⟩
        simp [sent] at hc ⊢
        have := hl3 (by simp; omega)
        simpa using this
      · rename_i hfull
        refine ⟨⟨l, hl1, by simpa [sent] using hl2.cons m⟩, fun hc => ?_⟩
        have hle : s.waiting.length ≤ s.accepted.length := by
          rw [← hi.order]; simp
        simp [sent] at hc
        omega
    · have hne : ∀ m, a ≠ .store m := fun m he => hst ⟨m, he⟩
      obtain ⟨e1, e2⟩ := hsame a hne h1
      have hs : sent (a :: as) = sent as := by cases a <;> first | rfl | exact absurd rfl (hne _)
      rw [hs, ← e1, ← e2]
      exact ⟨⟨l, hl1, hl2⟩, hl3⟩

/-- C04 (acceptance).  The accepted messages are a subsequence of the messages handed to `send`; as long
as no more messages are sent than the mailbox has room for, all of them are accepted in sending order;
and a single `send` is refused only when the mailbox is full. -/
theorem C04_acceptance (cap n : Nat) (handlers : Nat → Bool) (as : List Act) (s : State)
    (h : run (init cap n handlers) as = some s) :
    s.accepted.Sublist (sent as) ∧
    ((sent as).length ≤ cap → s.accepted = sent as) ∧
    (∀ m s', step s (.store m) = some s' →
      (s.waiting.length < s.cap ∧ s'.accepted = s.accepted ++ [m]) ∨
      (s.waiting.length = s.cap ∧ s'.accepted = s.accepted)) := by
  have hi := inv_run as (inv_init cap n handlers) h
  obtain ⟨⟨l, hl1, hl2⟩, hl3⟩ := accepted_growth as _ s (inv_init cap n handlers) h
  refine ⟨by simp [hl1, init, hl2], fun hc => by simpa [init] using hl3 (by simpa [init] using hc), ?_⟩
  intro m s' hst
  have := hi.bound
  simp only [step] at hst
  split at hst <;> simp at hst <;> subst hst
  · left; exact ⟨by assumption, rfl⟩
  · right; exact ⟨by omega, rfl⟩

/-- Non-vacuity: two senders and two workers interleave; all three messages are dispatched. -/
example : ∃ s, run (init 64 2 (fun i => i == 1))
      [.store ⟨1, 10⟩, .store ⟨2, 20⟩, .signal, .wake 1, .signal, .wake 0, .take 0 false, .store ⟨1, 30⟩,
       .take 1 false, .signal, .wake 1, .take 1 false] = some s ∧ Quiet s ∧ s.thrown = false ∧
      s.stopped = false ∧
      s.dispatched = [(⟨1, 10⟩, true), (⟨2, 20⟩, false), (⟨1, 30⟩, true)] :=
  ⟨_, rfl, by simp [Quiet, init], rfl, rfl, rfl⟩

/-- Non-vacuity of the progress theorem: a message waits while a worker still loops. -/
example : ∃ s, run (init 64 1 (fun _ => true)) [.store ⟨1, 10⟩, .signal, .wake 0] = some s ∧
    s.waiting ≠ [] ∧ s.thrown = false ∧ s.stopped = false := ⟨_, rfl, by decide, rfl, rfl⟩

/-- What is missing in C04: if a handler throws while several wake-ups were read together, the rest of
that batch stays in the mailbox although the reactor is quiet (no signal pending, event counter zero,
all workers idle, not stopped). -/
theorem C04_throwing_handler_violated :
    ∃ (as : List Act) (s : State), run (init 64 1 (fun _ => true)) as = some s ∧ Quiet s ∧
      s.stopped = false ∧ s.waiting = [⟨1, 20⟩] :=
  ⟨[.store ⟨1, 10⟩, .signal, .store ⟨1, 20⟩, .signal, .wake 0, .take 0 true], _, rfl,
    by simp [Quiet, init], rfl, rfl⟩

end Uscada.Reactor
