import Verif.ModbusRecover
import Verif.ModbusReuse
/-!
# Property C113: the Modbus server comes back

Specification: whatever masters have done to the server – frames that were wrong, half or not answered, links that failed, connections that were left
open – when nothing arrives any more, the timers bring all that was taken back: after each timer has expired twice no session is
started, every identifier is free once, and the reactor has its timers and links back; the next master is accepted and its
requests are carried out.
-/

namespace Uscada.Modbus

open AduStorage (Pending pendingOf)

namespace Server

/-- Specification: nothing happens to session `i` but that its timer expires, twice. -/
def lull (i : Nat) : List Ev := [.sess i .timer, .sess i .timer]

/-- Nothing happens at all but that timers expire. -/
def silence : List Ev := (List.range 256).flatMap lull

/-- How often the timer of a session expires before the session ends. -/
def rank (s : Session) : Nat :=
  match s.st with
  | .init => 0
  | .connected => 1
  | .wait => 2

theorem rank_zero {s : Session} : rank s = 0 ↔ s.st = .init := by
  unfold rank
  split <;> simp_all

theorem timer_rank {s : Session} (hh : s.st ≠ .init → s.link = true ∧ s.timer = true ∧ s.armed = true)
    (ha : s.st = .init → s.armed = false) : ∃ s' o, s.step .timer = .ok (s', o) ∧ rank s' = rank s - 1 := by
  obtain ⟨st, pdu, adu, link, timer, opened, armed⟩ := s
  cases st with
  | init =>
    have h0 : armed = false := ha rfl
    subst h0
    exact ⟨_, _, rfl, rfl⟩
  | connected =>
    obtain ⟨h1, h2, h3⟩ := hh (by simp)
    simp only at h1 h2 h3
    subst h1; subst h2; subst h3
    exact ⟨_, _, rfl, rfl⟩
  | wait =>
    obtain ⟨h1, h2, h3⟩ := hh (by simp)
    simp only at h1 h2 h3
    subst h1; subst h2; subst h3
    exact ⟨_, _, rfl, rfl⟩

/-- What the expiration of a timer does. -/
theorem timer_step {v : Server} (h : Safe v) {i : Nat} (hi : i < 256) :
    ∃ v' o, v.step (.sess i .timer) = .ok (v', o) ∧ Safe v' ∧ (∀ j, j ≠ i → v'.sess j = v.sess j) ∧
      rank (v'.sess i) = rank (v.sess i) - 1 ∧ (∀ j ∈ v.free, j ∈ v'.free) ∧
      ((v.sess i).st ≠ .init → (v'.sess i).st = .init → i ∈ v'.free) := by
  obtain ⟨s, o, h1, h2⟩ := timer_rank (h.held i) (h.armed i)
  have hs : v.step (.sess i .timer) = .ok (absorb v i s o, o.map fun x => (i, x)) := by
    have : ¬ i ≥ maxNumSession := by simp only [maxNumSession]; omega
    simp only [step, if_neg this, h1, Exec.ok_bind, Exec.pure_eq]
  have e1 : (absorb v i s o).sess = set v.sess i s := by unfold absorb; split <;> rfl
  refine ⟨_, _, hs, safe_step h hs, fun j hj => by rw [e1, set_other _ _ hj], by rw [e1, set_same, h2], ?_, ?_⟩
  · intro j hj
    unfold absorb
    split
    · simp [hj]
    · exact hj
  · rw [e1, set_same]
    intro g1 g2
    rcases sess_step h hs with e | ⟨s', e, k1, _⟩ | ⟨s', e, _, k2, _⟩ | ⟨s', e, _⟩
    · have : (absorb v i s o).sess i = v.sess i := by rw [e]
      rw [e1, set_same] at this
      exact absurd (this ▸ g2) g1
    · exact absurd k1 g1
    · have : (absorb v i s o).sess i = s' := by rw [e]; exact set_same _ _ _
      rw [e1, set_same] at this
      exact absurd (this ▸ g2) k2
    · rw [e]; simp

theorem run_append (v : Server) (a b : List Ev) : v.run (a ++ b) = (do let v ← v.run a; v.run b) := by
  induction a generalizing v with
  | nil => rfl
  | cons e a ih =>
    simp only [List.cons_append, run]
    cases v.step e with
    | ok r => simp only [Exec.ok_bind]; exact ih _
    | throws => rfl
    | abort => rfl
    | ub => rfl

theorem lull_run {v : Server} (h : Safe v) {i : Nat} (hi : i < 256) :
    ∃ v', v.run (lull i) = .ok v' ∧ Safe v' ∧ (∀ j, j ≠ i → v'.sess j = v.sess j) ∧ (v'.sess i).st = .init ∧
      (∀ j ∈ v.free, j ∈ v'.free) ∧ ((v.sess i).st ≠ .init → i ∈ v'.free) := by
  obtain ⟨v1, o1, a1, a2, a3, a4, a5, a6⟩ := timer_step h hi
  obtain ⟨v2, o2, b1, b2, b3, b4, b5, b6⟩ := timer_step a2 hi
  have hr : rank (v.sess i) ≤ 2 := by unfold rank; split <;> omega
  have h2 : (v2.sess i).st = .init := rank_zero.1 (by omega)
  refine ⟨v2, ?_, b2, fun j hj => by rw [b3 j hj, a3 j hj], h2, fun j hj => b5 j (a5 j hj), ?_⟩
  · simp only [lull, run, a1, b1, Exec.ok_bind]
  · intro hne
    by_cases h1 : (v1.sess i).st = .init
    · exact b5 i (a6 hne h1)
    · exact b6 h1 h2

theorem lulls_run (is : List Nat) (hi : ∀ i ∈ is, i < 256) : ∀ {v : Server}, Safe v →
    ∃ v', v.run (is.flatMap lull) = .ok v' ∧ Safe v' ∧ (∀ j, j ∉ is → v'.sess j = v.sess j) ∧
      (∀ j, (v.sess j).st = .init → (v'.sess j).st = .init) ∧
      (∀ i ∈ is, (v'.sess i).st = .init ∧ ((v.sess i).st ≠ .init → i ∈ v'.free)) ∧ ∀ j ∈ v.free, j ∈ v'.free := by
  induction is with
  | nil => intro v h; exact ⟨v, rfl, h, fun _ _ => rfl, fun _ h => h, by simp, fun _ h => h⟩
  | cons i is ih =>
    intro v h
    obtain ⟨v1, a1, a2, a3, a4, a5, a6⟩ := lull_run h (hi i (by simp))
    obtain ⟨v2, b1, b2, b3, b4, b5, b6⟩ := ih (fun j hj => hi j (by simp [hj])) a2
    refine ⟨v2, ?_, b2, ?_, ?_, ?_, fun j hj => b6 j (a5 j hj)⟩
    · rw [List.flatMap_cons, run_append, a1]
      exact b1
    · intro j hj
      rw [b3 j (fun hh => hj (by simp [hh])), a3 j (fun hh => hj (by simp [hh]))]
    · intro j hj
      refine b4 j ?_
      by_cases hji : j = i
      · rw [hji]; exact a4
      · rw [a3 j hji]; exact hj
    · intro j hj
      by_cases hji : j = i
      · subst hji
        exact ⟨b4 j a4, fun hne => b6 j (a6 hne)⟩
      · have hj' : j ∈ is := by simpa [hji] using hj
        refine ⟨(b5 j hj').1, fun hne => (b5 j hj').2 ?_⟩
        rw [a3 j hji]
        exact hne

theorem run_safe : ∀ {es : List Ev} {v v' : Server}, Safe v → v.run es = .ok v' → Safe v' := by
  intro es
  induction es with
  | nil => intro v v' h hr; cases hr; exact h
  | cons e es ih =>
    intro v v' h hr
    obtain ⟨⟨v1, o⟩, h1, h2⟩ := Exec.bind_eq_ok.1 hr
    exact ih (safe_step h h1) h2

theorem run_whole : ∀ {es : List Ev} {v v' : Server} {t l : Nat}, Safe v → Whole v t l → AcceptsOk v es → v.run es = .ok v' →
    Whole v' t l := by
  intro es
  induction es with
  | nil => intro v v' t l _ h _ hr; cases hr; exact h
  | cons e es ih =>
    intro v v' t l hs hw ha hr
    obtain ⟨⟨v1, o⟩, h1, h2⟩ := Exec.bind_eq_ok.1 hr
    exact ih (safe_step hs h1) (whole_step hs hw ha.1 h1) (ha.2 _ _ h1) h2

theorem accepts_none : ∀ {es : List Ev} {v : Server}, (∀ ok, Ev.accept ok ∉ es) → AcceptsOk v es := by
  intro es
  induction es with
  | nil => intro v _; trivial
  | cons e es ih =>
    intro v h
    exact ⟨fun ok e1 => absurd (e1 ▸ List.mem_cons_self) (h ok), fun v1 o _ => ih fun ok hm => h ok (List.mem_cons_of_mem _ hm)⟩

theorem silence_accepts (ok : Bool) : Ev.accept ok ∉ silence := by
  simp [silence, lull]

/-- C113: after any history, failed accepts included, silence ends every session, gives the identifier of every session that was started
back, and takes none away. -/
theorem C113_sessions_end {f : Nat → Session} (hn : NewSessions f) {t l : Nat} {es : List Ev} {v : Server}
    (h : (create f t l).run es = .ok v) :
    ∃ v', v.run silence = .ok v' ∧ (∀ i < 256, (v'.sess i).st = .init) ∧
      (∀ i < 256, (v.sess i).st ≠ .init → i ∈ v'.free) ∧ (∀ i ∈ v.free, i ∈ v'.free) ∧ v'.free.Nodup := by
  have hs := run_safe (safe_create hn t l) h
  obtain ⟨v', k1, k2, _, _, k5, k6⟩ := lulls_run (List.range 256) (by simp) hs
  exact ⟨v', k1, fun i hi => (k5 i (by simpa using hi)).1, fun i hi => (k5 i (by simpa using hi)).2, k6, k2.nodup⟩

/-- C113: after any history in which accepts succeed, silence gives everything back: every identifier is free once, and the
reactor has its timers and links.  Missing: what a failing accept has lost is not given back by silence either
(`C18_failed_accept_violated`). -/
theorem C113_comes_back_partial {f : Nat → Session} (hn : NewSessions f) {t l : Nat} {es : List Ev} {v : Server}
    (ha : AcceptsOk (create f t l) es) (h : (create f t l).run es = .ok v) :
    ∃ v', v.run silence = .ok v' ∧ v'.free.Nodup ∧ (∀ i, i ∈ v'.free ↔ i < 256) ∧ v'.timers = t ∧ v'.links = l := by
  have hs := run_safe (safe_create hn t l) h
  have hw := run_whole (safe_create hn t l) (whole_create t l) ha h
  obtain ⟨v', k1, k2, _, _, k5, _⟩ := lulls_run (List.range 256) (by simp) hs
  have hw' := run_whole hs hw (accepts_none silence_accepts) k1
  have hfree : ∀ i, i ∈ v'.free ↔ i < 256 :=
    fun i => ⟨k2.range i, fun hi => hw'.free i hi (k5 i (by simpa using hi)).1⟩
  have hlen : v'.free.length = 256 := by
    have h1 : v'.free.length ≤ 256 := nodup_bound _ k2.nodup k2.range
    have h2 : (List.range 256).length ≤ v'.free.length :=
      List.Nodup.length_le_of_subset List.nodup_range fun i hi => (hfree i).2 (by simpa using hi)
    simp only [List.length_range] at h2
    omega
  have h1 := hw'.timers
  have h2 := hw'.links
  exact ⟨v', k1, k2.nodup, hfree, by omega, by omega⟩

theorem sized_new {f : Nat → Session} (hn : NewSessions f) (t l : Nat) : ∀ i, Masters.Sized ((create f t l).sess i) := by
  intro i
  obtain ⟨m, a, e⟩ := hn i
  have e1 : (create f t l).sess i = Session.create m a := e
  rw [e1]
  exact ⟨rfl, Nat.zero_le _⟩

/-- C113: the next master is accepted, by a session like new.  Missing: as for `C113_comes_back_partial`. -/
theorem C113_accepts_again_partial {f : Nat → Session} (hn : NewSessions f) {t l : Nat} (ht : 0 < t) (hl : 0 < l) {es : List Ev}
    {v : Server} (ha : AcceptsOk (create f t l) es) (h : (create f t l).run es = .ok v) :
    ∃ v' v'' i, v.run silence = .ok v' ∧ v'.step (.accept true) = .ok (v'', []) ∧ i < 256 ∧ (v''.sess i).Fresh := by
  obtain ⟨v', k1, k2, k3, k4, k5⟩ := C113_comes_back_partial hn ha h
  have hs := run_safe (run_safe (safe_create hn t l) h) k1
  have hz := Reuse.run_sized _ (Reuse.run_sized _ (sized_new hn t l) h) k1
  cases hfr : v'.free with
  | nil =>
    have := (k3 0).2 (by omega)
    rw [hfr] at this
    cases this
  | cons i fr =>
    refine ⟨v', _, i, k1, accept_ok hfr hs (by omega) (by omega), (k3 i).1 (by rw [hfr]; simp), ?_⟩
    have hi := hz i
    simp only [accepted, set_same]
    exact ⟨rfl, rfl, rfl, rfl, rfl, rfl, rfl, hi.1, hi.2⟩

/-- C113 with C111: a client and a server after any histories; once the server has had its silence and the client is connected
again, the second request of the client is carried out.  Missing: as for `C113_comes_back_partial` and
`C111_serves_again_partial`. -/
theorem C113_together_partial {f : Nat → Session} (hn : NewSessions f) {t l : Nat} (ht : 0 < t) (hl : 0 < l) {es : List Ev}
    {v : Server} (ha : AcceptsOk (create f t l) es) (h : (create f t l).run es = .ok v)
    (m : Mem) (ces : List Client.Ev) (hce : Client.CallersOk ces) (c : Client) (tr : Client.Trace)
    (hc : (Client.create m).run ces = .ok (c, tr)) (h0 : c.st ≠ .init) (r q : CallerReq) (hr : Client.CallerOk r)
    (hq : Client.CallerOk q) (hrS : Exchange.Sendable (pendingOf r)) (hqS : Exchange.Sendable (pendingOf q))
    (app : ReqView → AppRsp) (happ : Exchange.Suits q.func (app (Exchange.meaning (pendingOf q))))
    (happ' : (app (Exchange.meaning (pendingOf q))).transactId = q.transactId) :
    ∃ v' v'' i n1 c1 o1 c2 n2 c3 o3 c4 c5 s5, v.run silence = .ok v' ∧ v'.step (.accept true) = .ok (v'', []) ∧ i < 256 ∧
      c.calms n1 = .ok (c1, o1) ∧ c1.step (.req r) = .ok (c2, []) ∧ c2.calms n2 = .ok (c3, o3) ∧
      c3.step (.req q) = .ok (c4, []) ∧
      Exchange.trades app 1 c4 (v''.sess i) =
        .ok (c5, s5, [Exchange.told (pendingOf q) (app (Exchange.meaning (pendingOf q)))]) := by
  obtain ⟨v', v'', i, a1, a2, a3, a4⟩ := C113_accepts_again_partial hn ht hl ha h
  obtain ⟨n1, c1, o1, c2, n2, c3, o3, c4, c5, s5, _, b2, _, b4, _, b6, _, b8, b9, _⟩ :=
    Client.C111_serves_again_partial m ces hce c tr hc h0 r q hr hq hrS hqS _ a4 app happ happ'
  exact ⟨v', v'', i, n1, c1, o1, c2, n2, c3, o3, c4, c5, s5, a1, a2, a3, b2, b4, b6, b8, b9⟩

/-! ## Violation -/

theorem accept_false {v : Server} (hi : ∀ i, (v.sess i).st = .init) :
    ∃ v', v.step (.accept false) = .ok (v', []) ∧ v'.free = v.free.tail ∧ ∀ i, (v'.sess i).st = .init := by
  have keep : ∀ (f : Nat → Session) (k : Nat) (s : Session), (∀ i, (f i).st = .init) → s.st = .init → ∀ i, (set f k s i).st = .init := by
    intro f k s h1 h2 i
    unfold set
    split
    · exact h2
    · exact h1 i
  cases hf : v.free with
  | nil => exact ⟨v, by simp [step, hf], by simp [hf], hi⟩
  | cons k fr =>
    simp only [step, hf, prepare]
    repeat' split
    all_goals first
      | exact ⟨_, rfl, rfl, hi⟩
      | exact ⟨_, rfl, rfl, keep _ _ _ hi (hi k)⟩
      | exact ⟨_, rfl, rfl, keep _ _ _ (keep _ _ _ hi (hi k)) (by simp [set_same, hi])⟩
      | simp_all

theorem accepts_false : ∀ (n : Nat) {v : Server}, Safe v → (∀ i, (v.sess i).st = .init) →
    ∃ v', v.run (List.replicate n (.accept false)) = .ok v' ∧ Safe v' ∧ v'.free.length = v.free.length - n ∧
      ∀ i, (v'.sess i).st = .init := by
  intro n
  induction n with
  | zero => intro v hs hi; exact ⟨v, rfl, hs, rfl, hi⟩
  | succ n ih =>
    intro v hs hi
    obtain ⟨v1, a1, a2, a3⟩ := accept_false hi
    obtain ⟨v2, b1, b2, b3, b4⟩ := ih (safe_step hs a1) a3
    refine ⟨v2, ?_, b2, ?_, b4⟩
    · simp only [List.replicate_succ, run, a1, Exec.ok_bind]
      exact b1
    · rw [b3, a2, List.length_tail]
      omega

theorem timers_idle : ∀ (is : List Nat), (∀ i ∈ is, i < 256) → ∀ {v : Server}, Safe v → (∀ i, (v.sess i).st = .init) →
    ∃ v', v.run (is.map fun i => .sess i .timer) = .ok v' ∧ v'.free = v.free := by
  intro is
  induction is with
  | nil => intro _ v _ _; exact ⟨v, rfl, rfl⟩
  | cons i is ih =>
    intro h v hs hi
    obtain ⟨v1, o, a1, a2, a3, a4, _⟩ := timer_step hs (h i (by simp))
    have hi1 : ∀ j, (v1.sess j).st = .init := by
      intro j
      by_cases hj : j = i
      · subst hj
        exact rank_zero.1 (by rw [a4, rank_zero.2 (hi j)])
      · rw [a3 j hj]; exact hi j
    have hfree : v1.free = v.free := by
      rcases sess_step hs a1 with rfl | ⟨s, rfl, _⟩ | ⟨s, rfl, _⟩ | ⟨s, _, _, k, _⟩
      · rfl
      · rfl
      · rfl
      · exact absurd (hi i) k
    obtain ⟨v2, b1, b2⟩ := ih (fun j hj => h j (by simp [hj])) a2 hi1
    refine ⟨v2, ?_, b2.trans hfree⟩
    simp only [List.map_cons, run, a1, Exec.ok_bind]
    exact b1

/-- Violation of C113: every accept that fails takes an identifier away, and no silence, however long, brings it back; after 256 of them the server
accepts nobody any more. -/
theorem C113_lost_violated {f : Nat → Session} (hn : NewSessions f) (t l n : Nat) (is : List Nat) (hi : ∀ i ∈ is, i < 256) :
    ∃ v v', (create f t l).run (List.replicate n (.accept false)) = .ok v ∧ v.run (is.map fun i => .sess i .timer) = .ok v' ∧
      v'.free.length = 256 - n := by
  have h0 : ∀ i, ((create f t l).sess i).st = .init := by
    intro i
    obtain ⟨m, a, e⟩ := hn i
    have e1 : (create f t l).sess i = Session.create m a := e
    rw [e1]
    rfl
  obtain ⟨v, a1, a2, a3, a4⟩ := accepts_false n (safe_create hn t l) h0
  obtain ⟨v', b1, b2⟩ := timers_idle is hi a2 a4
  refine ⟨v, v', a1, b1, ?_⟩
  rw [b2, a3]
  simp [create, maxNumSession]

/-! ## Examples -/

/-- Two masters: one leaves half a frame behind, the other one a request that is not answered and a broken link. -/
def mess : List Ev :=
  [.accept true, .accept true, .sess 0 (.data (.ok [0, 1, 0])), .sess 1 (.data (.ok (Session.sampleWrite 7))), .sess 1 .linkError]

/-- States of the first two sessions, free identifiers and what the reactor has left. -/
def census (v : Server) : List SSt × Nat × Nat × Nat := ([(v.sess 0).st, (v.sess 1).st], v.free.length, v.timers, v.links)

example : (do
    let v ← (create newSessions 2 2).run mess
    pure (census v)) = .ok ([.connected, .wait], 254, 0, 0) := by
  decide +kernel

/-- The server in this state accepts nobody; after silence on the two sessions all is as at the beginning. -/
example : (do
    let v ← (create newSessions 2 2).run mess
    let v ← v.run (lull 0 ++ lull 1)
    pure (census v)) = .ok ([.init, .init], 256, 2, 2) := by
  decide +kernel

/-- One expiration is not enough for the session that waits for the application. -/
example : (do
    let v ← (create newSessions 2 2).run mess
    let v ← v.run [.sess 0 .timer, .sess 1 .timer]
    pure (census v)) = .ok ([.init, .connected], 255, 1, 1) := by
  decide +kernel

end Server

end Uscada.Modbus
