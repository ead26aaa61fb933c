import Verif.SegmentationProps
/-!
# C17 and C19: where the session violates them; C18: resources of server sessions
-/

namespace Uscada.Modbus

open Client (wordAt byteAt)

namespace Session

/-- An answer of the application with two registers. -/
def sampleRsp2 (t : Nat) : AppRsp := { transactId := t, error := 0, success := true, data := [1, 2, 3, 4] }

/-- The frame sent for it to slave 9. -/
def sampleFrame (t : UInt8) : List UInt8 := [0, t, 0, 0, 0, 7, 9, 3, 4, 2, 1, 4, 3]

/-- Write registers 7 and 8 of slave 9. -/
def sampleWrite (t : UInt8) : List UInt8 := [0, t, 0, 0, 0, 11, 9, 16, 0, 7, 0, 2, 4, 1, 2, 3, 4]

/-- Write register 7 of slave 9. -/
def sampleSingle (t : UInt8) : List UInt8 := [0, t, 0, 0, 0, 6, 9, 6, 0, 7, 1, 2]

/-- A request that is rejected because of its length, after transaction id and slave address were stored. -/
def sampleBad (t addr : UInt8) : List UInt8 := [0, t, 0, 0, 0, 7, addr, 3, 0, 7, 0, 2, 0]

/-- Two requests answered in turn, one answer too late. -/
def sampleHistory : List Ev :=
  [.start, .data (.ok (sampleRead 5)), .rsp (sampleRsp2 5) true, .data (.ok (sampleRead 6)), .timer,
   .rsp (sampleRsp2 6) true, .data (.ok (sampleRead 7)), .rsp (sampleRsp2 6) true]

/-- Decides cleanness of a concrete history. -/
def cleanB (s : Session) (q : Open) : List Ev → Bool
  | [] => true
  | e :: es =>
    (match e with
      | .data (.ok bs) => decide (s.st = .wait → bs ≠ [])
      | .rsp r _ => decide (r.data.length ≤ 260 ∧ (s.st = .wait → q = none → r.transactId ≠ s.adu.transactId))
      | _ => true) &&
    (match s.step e with
      | .ok (s1, o) => cleanB s1 (nextOpen s1 o q) es
      | _ => true)

theorem clean_of_cleanB {s : Session} {q : Open} {es : List Ev} (h : cleanB s q es = true) : Clean s q es := by
  induction es generalizing s q with
  | nil => trivial
  | cons e es ih =>
    simp only [cleanB, Bool.and_eq_true] at h
    refine ⟨?_, fun s1 o hs => ?_⟩
    · have := h.1
      cases e with
      | data rx => cases rx <;> first | trivial | (simp only [CleanEv]; exact of_decide_eq_true this)
      | rsp r ok => simp only [CleanEv]; exact of_decide_eq_true this
      | _ => trivial
    · have := h.2
      rw [hs] at this
      exact ih this

/-- Non-vacuity: a clean history with an answer, a late answer and an answer to the wrong request. -/
example : Clean (create (fun _ => 0) sampleReq) none sampleHistory ∧
    effects sampleHistory = some [.fwd (sampleFwd 5), .frame (sampleFrame 5), .fwd (sampleFwd 6),
      .fwd (sampleFwd 7)] := by
  refine ⟨clean_of_cleanB ?_, ?_⟩ <;> decide +kernel

/-- Violation of C17: a rejected frame overwrites the stored transaction id and slave address; the
application's answer to transaction 5 is then sent as an answer of slave 10 instead of slave 9, although the
only forwarded request was for slave 9. -/
theorem C17_wrong_slave_violated :
    effects [.start, .data (.ok (sampleRead 5)), .timer, .data (.ok (sampleBad 5 10)), .rsp (sampleRsp2 5) true] =
      some [.fwd (sampleFwd 5), .frame [0, 5, 0, 0, 0, 7, 10, 3, 4, 2, 1, 4, 3]] := by
  decide +kernel

/-- Violation of C17: one forwarded request, two answers on the wire. -/
theorem C17_two_answers_violated :
    effects [.start, .data (.ok (sampleRead 5)), .rsp (sampleRsp2 5) true, .data (.ok (sampleBad 5 9)),
        .rsp (sampleRsp2 5) true] =
      some [.fwd (sampleFwd 5), .frame (sampleFrame 5), .frame (sampleFrame 5)] := by
  decide +kernel

/-- Violation of C17: an answer with more than 260 data bytes overflows the response buffer. -/
theorem C17_long_answer_violated (d : List UInt8) (hd : 260 < d.length) :
    ∃ s, (create (fun _ => 0) sampleReq).run [.start, .data (.ok (sampleRead 5))] = .ok s ∧
      s.1.step (.rsp { transactId := 5, error := 0, success := true, data := d } true) = .ub := by
  have hk : (match (create (fun _ => 0) sampleReq).run [.start, .data (.ok (sampleRead 5))] with
    | .ok s => decide (s.1.st = .wait) && decide (s.1.adu.transactId = 5)
    | _ => false) = true := by decide +kernel
  split at hk
  · rename_i s hs
    refine ⟨s, hs, ?_⟩
    simp only [Bool.and_eq_true, decide_eq_true_eq] at hk
    have hA : maxAduLen = 260 := rfl
    simp only [step, onRsp, hk.1, send_body]
    rw [if_neg (by simp [hk.2]), if_neg (by simp), if_pos (by rw [hA]; exact hd)]
    rfl
  · cases hk

/-- Violation of C19: a read request is forwarded with the data of the write request before it, and a
single write with the item count of the request before it. -/
theorem C19_leftovers_violated :
    effects [.start, .data (.ok (sampleWrite 5)), .timer, .data (.ok (sampleRead 6)), .timer,
        .data (.ok (sampleSingle 7))] =
      some [.fwd { transactId := 5, func := 16, addr := 9, startItem := 7, numItems := 2, numBytes := 4, data := [2, 1, 4, 3] },
        .fwd { transactId := 6, func := 3, addr := 9, startItem := 7, numItems := 2, numBytes := 4, data := [2, 1, 4, 3] },
        .fwd { transactId := 7, func := 6, addr := 9, startItem := 7, numItems := 2, numBytes := 2, data := [2, 1] }] := by
  decide +kernel

/-- A write of registers whose values look like a request of transaction 99. -/
def smuggle : List UInt8 :=
  [0, 5, 0, 0, 0, 19, 9, 16, 0, 7, 0, 6, 12] ++ [99, 0, 0, 0, 6, 9, 3, 0, 8, 0, 1, 0]

def smuggled : List UInt8 := [0, 99, 0, 0, 9, 6, 0, 3, 0, 8, 0, 1]

/-- Violation of C19: the peer closes its side while a request is waiting; the session decodes the bytes
behind the received frame, left there by an earlier frame, and forwards a request nobody sent. -/
theorem C19_phantom_request_violated :
    (effects [.start, .data (.ok smuggle), .timer, .data (.ok (sampleRead 6)), .data (.ok [])]).map (fun l => l.drop 2) =
      some [.fwd { transactId := 12 * 256 + 99, func := 3, addr := 9, startItem := 8, numItems := 1, numBytes := 12, data := smuggled }] := by
  decide +kernel

end Session

/-! ## C18 -/

namespace Server

open Session (Holds)

/-- Free identifiers are distinct and in range, their sessions are not started and hold nothing, and every
session that is started holds a link and a running timer. -/
structure Safe (v : Server) : Prop where
  nodup : v.free.Nodup
  range : ∀ i ∈ v.free, i < 256
  idle : ∀ i ∈ v.free, (v.sess i).st = .init ∧ (v.sess i).link = false ∧ (v.sess i).timer = false
  held : ∀ i, (v.sess i).st ≠ .init → (v.sess i).link = true ∧ (v.sess i).timer = true ∧ (v.sess i).armed = true
  armed : ∀ i, (v.sess i).st = .init → (v.sess i).armed = false

/-- Nothing has been lost: a session that is not started is free, and what is missing in the
reactor's pools is what started sessions hold. -/
structure Whole (v : Server) (timers links : Nat) : Prop where
  free : ∀ i, i < 256 → (v.sess i).st = .init → i ∈ v.free
  timers : v.timers + 256 = timers + v.free.length
  links : v.links + 256 = links + v.free.length

theorem set_same (f : Nat → Session) (i : Nat) (s : Session) : set f i s i = s := by simp [set]
theorem set_other (f : Nat → Session) {i j : Nat} (s : Session) (h : j ≠ i) : set f i s j = f j := by simp [set, h]

/-- The sessions of a new server. -/
def NewSessions (f : Nat → Session) : Prop := ∀ i, ∃ m a, f i = Session.create m a

theorem safe_create {f : Nat → Session} (h : NewSessions f) (t l : Nat) : Safe (create f t l) := by
  have hs : ∀ i, Holds (f i) ∧ (f i).st = .init := by
    intro i
    obtain ⟨m, a, e⟩ := h i
    rw [e]
    exact ⟨Session.holds_create m a, rfl⟩
  refine ⟨by simp only [create]; exact List.nodup_range, fun i hi => by simpa [create, maxNumSession] using hi, fun i _ => ?_, fun i hi => absurd (hs i).2 hi,
    fun i hi => ((hs i).1.1 hi).2.2⟩
  exact ⟨(hs i).2, ((hs i).1.1 (hs i).2).1, ((hs i).1.1 (hs i).2).2.1⟩

theorem whole_create {f : Nat → Session} (t l : Nat) : Whole (create f t l) t l :=
  ⟨fun i hi _ => by simpa [create, maxNumSession] using hi, by simp [create, maxNumSession], by simp [create, maxNumSession]⟩

/-- A session that is not started ignores everything but its start. -/
theorem step_idle {s s1 : Session} {e : Session.Ev} {o : List SOut} (hi : s.st = .init) (ha : s.armed = false)
    (he : e ≠ .start) (h : s.step e = .ok (s1, o)) :
    o = [] ∧ s1.st = .init ∧ s1.link = s.link ∧ s1.timer = s.timer ∧ s1.armed = false := by
  cases e with
  | start => exact absurd rfl he
  | data rx =>
    simp only [Session.step, Session.onData, hi] at h
    split at h <;> cases h <;> exact ⟨rfl, hi, rfl, rfl, ha⟩
  | linkError => simp only [Session.step] at h; cases h; exact ⟨rfl, hi, rfl, rfl, ha⟩
  | rsp r ok => simp only [Session.step, Session.onRsp, hi] at h; cases h; exact ⟨rfl, hi, rfl, rfl, ha⟩
  | timer => simp only [Session.step, ha] at h; cases h; exact ⟨rfl, hi, rfl, rfl, ha⟩

/-- Storing a session that is not free. -/
theorem safe_set {v : Server} (h : Safe v) {i : Nat} {s : Session} {fr : List Nat} (hf : fr.Nodup)
    (hsub : ∀ j ∈ fr, j ∈ v.free) (hi : i ∉ fr) (hh : s.st ≠ .init → s.link = true ∧ s.timer = true ∧ s.armed = true)
    (ha : s.st = .init → s.armed = false) (t l : Nat) :
    Safe { free := fr, sess := set v.sess i s, timers := t, links := l } := by
  have hcase : ∀ j, set v.sess i s j = s ∨ set v.sess i s j = v.sess j := by
    intro j
    by_cases hj : j = i
    · exact .inl (by rw [hj, set_same])
    · exact .inr (set_other _ _ hj)
  refine ⟨hf, fun j hj => h.range j (hsub j hj), fun j hj => ?_, fun j => ?_, fun j => ?_⟩
  · have : j ≠ i := fun e => hi (e ▸ hj)
    dsimp only
    rw [set_other _ _ this]
    exact h.idle j (hsub j hj)
  · dsimp only
    rcases hcase j with e | e <;> rw [e]
    · exact hh
    · exact h.held j
  · dsimp only
    rcases hcase j with e | e <;> rw [e]
    · exact ha
    · exact h.armed j

/-- The state after a successful accept for identifier `i`. -/
def accepted (v : Server) (i : Nat) (fr : List Nat) : Server :=
  { free := fr, sess := set v.sess i (Session.ready { v.sess i with link := true, timer := true, opened := true }),
    timers := v.timers - 1, links := v.links - 1 }

theorem set_set (f : Nat → Session) (i : Nat) (s t : Session) : set (set f i s) i t = set f i t := by
  funext j; simp only [set]; split <;> rfl

theorem prepare_ok {v : Server} {i : Nat} (ht : v.timers ≠ 0) (hl : v.links ≠ 0) (ok : Bool) :
    prepare v i ok = (Server.mk v.free (set v.sess i { v.sess i with timer := true, link := true })
      (v.timers - 1) (v.links - 1), ok) := by
  simp only [prepare, if_neg ht, if_neg hl, set_same, set_set]

theorem accept_ok {v : Server} {i : Nat} {fr : List Nat} (hfr : v.free = i :: fr) (h : Safe v)
    (ht : 0 < v.timers) (hl : 0 < v.links) : v.step (.accept true) = .ok (accepted v i fr, []) := by
  have hi := h.idle i (by rw [hfr]; simp)
  have e0 : ({ v.sess i with timer := true, link := true } : Session).step .start =
      .ok (Session.ready { v.sess i with link := true, timer := true, opened := true }, []) := by
    simp only [Session.step, Session.onStart, hi.1]
    rw [← Session.transit_connected (by simp) rfl]
  simp only [step, hfr]
  rw [prepare_ok (by dsimp only; omega) (by dsimp only; omega)]
  simp only [set_same, Bool.true_eq_false, if_false]
  rw [e0]
  simp [absorb, accepted, set_set]

/-- A failed accept. -/
theorem accept_fail {v v' : Server} {i : Nat} {fr : List Nat} {ok : Bool} {o : List (Nat × SOut)} (hfr : v.free = i :: fr)
    (hbad : v.timers = 0 ∨ v.links = 0 ∨ ok = false) (h : v.step (.accept ok) = .ok (v', o)) :
    ∃ s t l, v' = { free := fr, sess := set v.sess i s, timers := t, links := l } ∧ s.st = (v.sess i).st ∧
      s.armed = (v.sess i).armed := by
  have hset : set v.sess i (v.sess i) = v.sess := by
    funext j; simp only [set]; split
    · rename_i e; rw [e]
    · rfl
  by_cases hg : v.timers ≠ 0 ∧ v.links ≠ 0
  · have : ok = false := by
      rcases hbad with h | h | h
      · exact absurd h hg.1
      · exact absurd h hg.2
      · exact h
    subst this
    simp only [step, hfr] at h
    rw [prepare_ok (by exact hg.1) (by exact hg.2)] at h
    cases h
    exact ⟨{ v.sess i with timer := true, link := true }, _, _, rfl, rfl, rfl⟩
  · simp only [step, hfr] at h
    by_cases ht : v.timers = 0
    · have hp : prepare { v with free := fr } i ok = ({ v with free := fr }, false) := by
        simp [prepare, ht]
      rw [hp] at h
      cases h
      exact ⟨v.sess i, v.timers, v.links, by rw [hset], rfl, rfl⟩
    · have hl : v.links = 0 := by
        by_cases hl : v.links = 0
        · exact hl
        · exact absurd ⟨ht, hl⟩ hg
      have hp : prepare { v with free := fr } i ok =
          ({ free := fr, sess := set v.sess i { v.sess i with timer := true }, timers := v.timers - 1, links := v.links }, false) := by
        simp [prepare, ht, hl]
      rw [hp] at h
      cases h
      exact ⟨_, _, _, rfl, rfl, rfl⟩

/-- An event of a session. -/
theorem sess_step {v v' : Server} {i : Nat} {e : Session.Ev} {o : List (Nat × SOut)} (h : Safe v)
    (hs : v.step (.sess i e) = .ok (v', o)) :
    v' = v ∨
    (∃ s, v' = { v with sess := set v.sess i s } ∧ (v.sess i).st = .init ∧ s.st = .init ∧ s.armed = false ∧
      s.link = (v.sess i).link ∧ s.timer = (v.sess i).timer) ∨
    (∃ s, v' = { v with sess := set v.sess i s } ∧ (v.sess i).st ≠ .init ∧ s.st ≠ .init ∧ Holds s) ∨
    (∃ s, v' = { free := v.free ++ [i], sess := set v.sess i s, timers := v.timers + 1, links := v.links + 1 } ∧
      i < 256 ∧ (v.sess i).st ≠ .init ∧ s.st = .init ∧ Holds s) := by
  by_cases he : e = .start
  · subst he
    simp only [step] at hs
    cases hs
    exact .inl rfl
  have hstep : v.step (.sess i e) = (if i ≥ maxNumSession then .ub else do
        let (s, o) ← (v.sess i).step e
        pure (absorb v i s o, o.map fun x => (i, x))) := by
    cases e <;> first | exact absurd rfl he | rfl
  rw [hstep] at hs
  split at hs
  · cases hs
  rename_i hlt
  obtain ⟨⟨s, o'⟩, h1, h2⟩ := Exec.bind_eq_ok.1 hs
  cases h2
  by_cases hi : (v.sess i).st = .init
  · obtain ⟨k1, k2, k3, k4, k5⟩ := step_idle hi (h.armed i hi) he h1
    subst k1
    exact .inr (.inl ⟨s, by simp [absorb], hi, k2, k5, k3, k4⟩)
  · have hh := h.held i hi
    have hho : Holds (v.sess i) := ⟨fun e => absurd e hi, fun _ => hh⟩
    obtain ⟨k1, ⟨k2, k3⟩, _⟩ := Session.step_holds hho h1
    by_cases hr : .released ∈ o'
    · have hc : o'.count .released = 1 := by
        have := List.count_pos_iff.2 hr
        omega
      refine .inr (.inr (.inr ⟨s, ?_, by simpa [maxNumSession] using hlt, hi, (k2.1 hr).2, k1⟩))
      simp [absorb, hr, hc, hh]
    · refine .inr (.inr (.inl ⟨s, ?_, hi, fun h0 => hr (k2.2 ⟨hi, h0⟩), k1⟩))
      simp [absorb, hr]

theorem safe_step {v v' : Server} {e : Ev} {o : List (Nat × SOut)} (h : Safe v) (hs : v.step e = .ok (v', o)) :
    Safe v' := by
  cases e with
  | accept ok =>
    cases hfr : v.free with
    | nil =>
      simp only [step, hfr] at hs
      cases hs
      exact h
    | cons i fr =>
      have hn := h.nodup
      rw [hfr] at hn
      have hni : i ∉ fr := (List.nodup_cons.1 hn).1
      have hnf : fr.Nodup := (List.nodup_cons.1 hn).2
      have hsub : ∀ j ∈ fr, j ∈ v.free := fun j hj => by rw [hfr]; simp [hj]
      by_cases hg : 0 < v.timers ∧ 0 < v.links ∧ ok = true
      · obtain ⟨g1, g2, rfl⟩ := hg
        rw [accept_ok hfr h g1 g2] at hs
        cases hs
        exact safe_set h hnf hsub hni (by simp [Session.ready]) (by simp [Session.ready]) _ _
      · obtain ⟨s, t, l, rfl, e1, e2⟩ := accept_fail hfr (by
          by_cases a : v.timers = 0
          · exact .inl a
          by_cases b : v.links = 0
          · exact .inr (.inl b)
          refine .inr (.inr ?_)
          cases ok
          · rfl
          · exact absurd ⟨by omega, by omega, rfl⟩ hg) hs
        have hi := (h.idle i (by rw [hfr]; simp)).1
        exact safe_set h hnf hsub hni (by rw [e1, hi]; simp) (by rw [e2]; exact fun _ => h.armed i hi) _ _
  | sess i e =>
    rcases sess_step h hs with rfl | ⟨s, rfl, h1, h2, h3, h4, h5⟩ | ⟨s, rfl, h1, h2, h3⟩ | ⟨s, rfl, h0, h1, h2, h3⟩
    · exact h
    · have hcase : ∀ j, (set v.sess i s j).st = (v.sess j).st ∧ (set v.sess i s j).link = (v.sess j).link ∧
          (set v.sess i s j).timer = (v.sess j).timer ∧ ((set v.sess i s j).armed = (v.sess j).armed) := by
        intro j
        by_cases hj : j = i
        · subst hj; rw [set_same]; exact ⟨by rw [h1, h2], h4, h5, by rw [h3, h.armed _ h1]⟩
        · rw [set_other _ _ hj]; simp
      refine ⟨h.nodup, h.range, fun j hj => ?_, fun j => ?_, fun j => ?_⟩
      · dsimp only; rw [(hcase j).1, (hcase j).2.1, (hcase j).2.2.1]; exact h.idle j hj
      · dsimp only; rw [(hcase j).1, (hcase j).2.1, (hcase j).2.2.1, (hcase j).2.2.2]; exact h.held j
      · dsimp only; rw [(hcase j).1, (hcase j).2.2.2]; exact h.armed j
    · exact safe_set h h.nodup (fun _ hj => hj) (fun hj => h1 (h.idle i hj).1) (fun _ => h3.2 h2) (fun e => absurd e h2) _ _
    · have hif : i ∉ v.free := fun hj => h1 (h.idle i hj).1
      have hcase : ∀ j, j ≠ i → set v.sess i s j = v.sess j := fun j hj => set_other _ _ hj
      have hn := h3.1 h2
      refine ⟨?_, ?_, ?_, ?_, ?_⟩
      · dsimp only
        rw [List.nodup_append]
        exact ⟨h.nodup, by simp, fun a ha b hb => by simp at hb; subst hb; exact fun e => hif (e ▸ ha)⟩
      · intro j hj
        simp only [List.mem_append, List.mem_singleton] at hj
        rcases hj with hj | rfl
        · exact h.range j hj
        · exact h0
      · intro j hj
        simp only [List.mem_append, List.mem_singleton] at hj
        dsimp only
        by_cases hji : j = i
        · subst hji; rw [set_same]; exact ⟨h2, hn.1, hn.2.1⟩
        · rw [hcase j hji]
          rcases hj with hj | hj
          · exact h.idle j hj
          · exact absurd hj hji
      · intro j
        dsimp only
        by_cases hji : j = i
        · subst hji; rw [set_same]; exact h3.2
        · rw [hcase j hji]; exact h.held j
      · intro j
        dsimp only
        by_cases hji : j = i
        · subst hji; rw [set_same]; exact fun _ => hn.2.2
        · rw [hcase j hji]; exact h.armed j

/-- C18: in every history of a server, whatever accepts, connections and timers do, an identifier that can be handed
out is in the queue once, belongs to a session that is not started and holds nothing, and every started session
holds its own link and running timer. -/
theorem C18_identifiers_not_shared {f : Nat → Session} (hn : NewSessions f) {t l : Nat} {es : List Ev} {v : Server}
    (h : (create f t l).run es = .ok v) : Safe v := by
  suffices ∀ (u : Server), Safe u → u.run es = .ok v → Safe v from this _ (safe_create hn t l) h
  clear h
  induction es with
  | nil => intro u hu h; simp only [run] at h; cases h; exact hu
  | cons e es ih =>
    intro u hu h
    simp only [run] at h
    obtain ⟨⟨u1, o⟩, h1, h2⟩ := Exec.bind_eq_ok.1 h
    exact ih u1 (safe_step hu h1) h2

/-- Accepts that find an identifier succeed. -/
def AcceptsOk (v : Server) : List Ev → Prop
  | [] => True
  | e :: es => (∀ ok, e = .accept ok → v.free ≠ [] → ok = true ∧ 0 < v.timers ∧ 0 < v.links) ∧
      ∀ v1 o, v.step e = .ok (v1, o) → AcceptsOk v1 es

theorem whole_step {v v' : Server} {e : Ev} {o : List (Nat × SOut)} {t l : Nat} (h : Safe v) (hw : Whole v t l)
    (ha : ∀ ok, e = .accept ok → v.free ≠ [] → ok = true ∧ 0 < v.timers ∧ 0 < v.links)
    (hs : v.step e = .ok (v', o)) : Whole v' t l := by
  cases e with
  | accept ok =>
    cases hfr : v.free with
    | nil =>
      simp only [step, hfr] at hs
      cases hs
      exact hw
    | cons i fr =>
      obtain ⟨rfl, g1, g2⟩ := ha ok rfl (by rw [hfr]; simp)
      rw [accept_ok hfr h g1 g2] at hs
      cases hs
      have ht := hw.timers
      have hl := hw.links
      rw [hfr] at ht hl
      simp only [List.length_cons] at ht hl
      refine ⟨fun j hj => ?_, by simp only [accepted]; omega, by simp only [accepted]; omega⟩
      simp only [accepted]
      by_cases hji : j = i
      · subst hji; rw [set_same]; simp [Session.ready]
      · rw [set_other _ _ hji]
        intro h0
        have := hw.free j hj h0
        rw [hfr] at this
        simpa [hji] using this
  | sess i e =>
    rcases sess_step h hs with rfl | ⟨s, rfl, h1, h2, h3, h4, h5⟩ | ⟨s, rfl, h1, h2, h3⟩ | ⟨s, rfl, h0, h1, h2, h3⟩
    · exact hw
    · refine ⟨fun j hj => ?_, hw.timers, hw.links⟩
      dsimp only
      by_cases hji : j = i
      · subst hji; rw [set_same]; exact fun _ => hw.free j hj h1
      · rw [set_other _ _ hji]; exact hw.free j hj
    · refine ⟨fun j hj => ?_, hw.timers, hw.links⟩
      dsimp only
      by_cases hji : j = i
      · subst hji; rw [set_same]; exact fun e => absurd e h2
      · rw [set_other _ _ hji]; exact hw.free j hj
    · have ht := hw.timers
      have hl := hw.links
      refine ⟨fun j hj => ?_, by simp only [List.length_append, List.length_singleton]; omega, by simp only [List.length_append, List.length_singleton]; omega⟩
      dsimp only
      by_cases hji : j = i
      · subst hji; simp
      · rw [set_other _ _ hji]; intro h0; simp [hw.free j hj h0]

/-- A list of distinct numbers below `n` has at most `n` elements. -/
theorem nodup_bound : ∀ {n : Nat} (l : List Nat), l.Nodup → (∀ i ∈ l, i < n) → l.length ≤ n := by
  intro n
  induction n with
  | zero =>
    intro l _ h
    cases l with
    | nil => simp
    | cons a l => exact absurd (h a (by simp)) (by omega)
  | succ n ih =>
    intro l hn h
    have h1 := ih (l.erase n) (hn.erase n) (fun i hi => by
      have := (hn.mem_erase_iff).1 hi
      have := h i this.2
      omega)
    have := List.length_erase (a := n) (l := l)
    split at this <;> omega

/-- C18: as long as accepts that find an identifier succeed, an identifier is free exactly while its
session is not started, and the timers and links missing in the reactor's pools are exactly those of
the started sessions (256 minus the free ones).

Missing: a failing accept loses the identifier and the timer (`C18_failed_accept_violated`). -/
theorem C18_resources_returned_partial {f : Nat → Session} (hn : NewSessions f) {t l : Nat} {es : List Ev} {v : Server}
    (ha : AcceptsOk (create f t l) es) (h : (create f t l).run es = .ok v) :
    (∀ i, i < 256 → ((v.sess i).st = .init ↔ i ∈ v.free)) ∧
    v.timers + (256 - v.free.length) = t ∧ v.links + (256 - v.free.length) = l := by
  suffices hsuf : ∀ (u : Server), Safe u → Whole u t l → AcceptsOk u es → u.run es = .ok v → Safe v ∧ Whole v t l by
    obtain ⟨h1, h2⟩ := hsuf _ (safe_create hn t l) (whole_create t l) ha h
    have hle : v.free.length ≤ 256 := by
      exact nodup_bound _ h1.nodup h1.range
    have := h2.timers
    have := h2.links
    exact ⟨fun i hi => ⟨h2.free i hi, fun hf => (h1.idle i hf).1⟩, by omega, by omega⟩
  clear h ha
  induction es with
  | nil => intro u h1 h2 _ h; simp only [run] at h; cases h; exact ⟨h1, h2⟩
  | cons e es ih =>
    intro u h1 h2 h3 h
    simp only [run] at h
    obtain ⟨⟨u1, o⟩, k1, k2⟩ := Exec.bind_eq_ok.1 h
    exact ih u1 (safe_step h1 k1) (whole_step h1 h2 h3.1 k1) (h3.2 _ _ k1) k2

/-- Sessions of a new server whose buffers hold zeros. -/
def newSessions (_ : Nat) : Session := Session.create (fun _ => 0) sampleReq

/-- Free identifiers, timers and links left after a history. -/
def left (t l : Nat) (es : List Ev) : Option (Nat × Nat × Nat) :=
  match (create newSessions t l).run es with
  | .ok v => some (v.free.length, v.timers, v.links)
  | _ => none

/-- Non-vacuity: two connections, one of which times out. -/
example : left 32 32 [.accept true, .accept true] = some (254, 30, 30) ∧
    left 32 32 [.accept true, .accept true, .sess 0 .timer] = some (255, 31, 31) := by
  decide +kernel

/-- Violation of C18: a failing accept loses the identifier, a timer and a link although no session is
started. -/
theorem C18_failed_accept_violated :
    left 32 32 [.accept false] = some (255, 31, 31) ∧ left 32 0 [.accept true] = some (255, 31, 0) ∧
    left 0 32 [.accept true] = some (255, 0, 32) := by
  decide +kernel

/-- Violation of C18: after 256 failing accepts the server serves no connection any more: a further accept changes
nothing and starts no session. -/
theorem C18_server_dead_violated :
    left 256 256 (List.replicate 256 (.accept false) ++ [.accept true]) = some (0, 0, 0) := by
  decide +kernel

end Server
end Uscada.Modbus
