import Verif.ModbusServerProps
/-!
# C18: what a failing accept costs
-/

namespace Uscada.Modbus.Server

/-- Session `i` is neither free nor started, and holds a link and a timer. -/
structure Gone (v : Server) (i : Nat) : Prop where
  free : i ∉ v.free
  st : (v.sess i).st = .init
  armed : (v.sess i).armed = false
  link : (v.sess i).link = true
  timer : (v.sess i).timer = true

theorem gone_absorb {v : Server} {i j : Nat} (h : Gone v i) (hj : i ≠ j) (s : Session) (o : List SOut) : Gone (absorb v j s o) i := by
  have e : set v.sess j s i = v.sess i := set_other _ _ hj
  unfold absorb
  split
  · refine ⟨?_, ?_, ?_, ?_, ?_⟩ <;> dsimp only <;> try rw [e]
    · intro hm
      rcases List.mem_append.1 hm with hm | hm
      · exact h.free hm
      · exact hj (List.eq_of_mem_replicate hm)
    · exact h.st
    · exact h.armed
    · exact h.link
    · exact h.timer
  · exact ⟨h.free, by dsimp only; rw [e]; exact h.st, by dsimp only; rw [e]; exact h.armed, by dsimp only; rw [e]; exact h.link, by dsimp only; rw [e]; exact h.timer⟩

theorem gone_prepare {v : Server} {i j : Nat} (h : Gone v i) (hj : i ≠ j) (ok : Bool) : Gone (prepare v j ok).1 i := by
  have e : ∀ (f : Nat → Session) s, set f j s i = f i := fun f s => set_other _ _ hj
  unfold prepare
  split
  · exact h
  · dsimp only
    split
    · exact ⟨h.free, by dsimp only; rw [e]; exact h.st, by dsimp only; rw [e]; exact h.armed, by dsimp only; rw [e]; exact h.link, by dsimp only; rw [e]; exact h.timer⟩
    · exact ⟨h.free, by dsimp only; rw [e, e]; exact h.st, by dsimp only; rw [e, e]; exact h.armed, by dsimp only; rw [e, e]; exact h.link,
        by dsimp only; rw [e, e]; exact h.timer⟩

theorem gone_step {v v' : Server} {i : Nat} {e : Ev} {o : List (Nat × SOut)} (h : Gone v i) (hs : v.step e = .ok (v', o)) : Gone v' i := by
  cases e with
  | accept ok =>
    simp only [step] at hs
    split at hs
    · cases hs; exact h
    · rename_i j fr hfr
      have hj : i ≠ j := by
        rintro rfl
        exact h.free (by rw [hfr]; simp)
      have h' : Gone { v with free := fr } i := ⟨fun hm => h.free (by rw [hfr]; simp [hm]), h.st, h.armed, h.link, h.timer⟩
      have hp := gone_prepare h' hj ok
      generalize prepare { v with free := fr } j ok = x at hs hp
      obtain ⟨w, good⟩ := x
      dsimp only at hs hp
      split at hs
      · cases hs; exact hp
      · obtain ⟨⟨s, os⟩, _, h2⟩ := Exec.bind_eq_ok.1 hs
        cases h2
        exact gone_absorb hp hj s os
  | sess j e =>
    have key : ∀ e, e ≠ .start → (if j ≥ maxNumSession then .ub else do
        let (s, o) ← (v.sess j).step e
        pure (absorb v j s o, o.map fun x => (j, x)) : Exec (Server × List (Nat × SOut))) = .ok (v', o) → Gone v' i := by
      intro e he hs
      split at hs
      · cases hs
      · obtain ⟨⟨s, os⟩, h1, h2⟩ := Exec.bind_eq_ok.1 hs
        cases h2
        by_cases hj : i = j
        · subst hj
          obtain ⟨rfl, a1, a2, a3, a4⟩ := step_idle h.st h.armed he h1
          have e : set v.sess i s i = s := set_same _ _ _
          exact ⟨by simpa [absorb] using h.free, by simpa [absorb, e] using a1, by simpa [absorb, e] using a4, by simpa [absorb, e, h.link] using a2,
            by simpa [absorb, e, h.timer] using a3⟩
        · exact gone_absorb h hj s os
    cases e with
    | start => simp only [step] at hs; cases hs; exact h
    | data rx => exact key _ (by simp) hs
    | linkError => exact key _ (by simp) hs
    | rsp r ok => exact key _ (by simp) hs
    | timer => exact key _ (by simp) hs

theorem gone_run (es : List Ev) : ∀ {v w : Server} {i : Nat}, Gone v i → v.run es = .ok w → Gone w i := by
  induction es with
  | nil => intro v w i h hr; simp only [run] at hr; cases hr; exact h
  | cons e es ih =>
    intro v w i h hr
    simp only [run] at hr
    obtain ⟨⟨u, o⟩, h1, h2⟩ := Exec.bind_eq_ok.1 hr
    exact ih (gone_step h h1) h2

/-- Violation of C18, always and for ever: whenever `accept` fails in a server that has an identifier, a timer and a link to give, these three are lost.  No session
is started with them, and whatever happens afterwards the identifier is not free again and its session never starts. -/
theorem C18_every_failure_violated {f : Nat → Session} (hn : NewSessions f) {t l : Nat} {es : List Ev} {v : Server} (h : (create f t l).run es = .ok v)
    {i : Nat} {fr : List Nat} (hf : v.free = i :: fr) (ht : 0 < v.timers) (hl : 0 < v.links) :
    ∃ v', v.step (.accept false) = .ok (v', []) ∧ v'.free = fr ∧ v'.timers = v.timers - 1 ∧ v'.links = v.links - 1 ∧
      ∀ es' w, v'.run es' = .ok w → i ∉ w.free ∧ (w.sess i).st = .init ∧ (w.sess i).link = true ∧ (w.sess i).timer = true := by
  have hs := C18_identifiers_not_shared hn h
  have hi := hs.idle i (by rw [hf]; simp)
  have hnd : i ∉ fr := by
    have := hs.nodup
    rw [hf] at this
    exact (List.nodup_cons.1 this).1
  refine ⟨Server.mk fr (set v.sess i { v.sess i with timer := true, link := true }) (v.timers - 1) (v.links - 1), ?_, rfl, rfl, rfl, ?_⟩
  · simp only [step, hf]
    rw [prepare_ok (by dsimp only; omega) (by dsimp only; omega)]
    rfl
  · intro es' w hw
    have hg : Gone (Server.mk fr (set v.sess i { v.sess i with timer := true, link := true }) (v.timers - 1) (v.links - 1)) i :=
      ⟨hnd, by simpa [set_same] using hi.1, by simpa [set_same] using hs.armed i hi.1, by simp [set_same], by simp [set_same]⟩
    have := gone_run es' hg hw
    exact ⟨this.free, this.st, this.link, this.timer⟩

/-- Non-vacuity: a failing accept among good ones; when all sessions have ended one identifier, one timer and one link are missing. -/
example : left 32 32 [.accept true, .accept false, .accept true, .sess 0 .timer, .sess 2 .timer] = some (255, 31, 31) := by
  decide +kernel

end Uscada.Modbus.Server
