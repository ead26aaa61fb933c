import Verif.Fsm
/-!
# C41: state changes run exit and entry actions once each, in order
-/

namespace Uscada.Fsm

variable {S E : Type}

/-- Specification: a legal observation starting with `s` current and ending with `s'` current is a
chain of changes, each leaving the current state exactly once and then entering a different one
exactly once. -/
inductive Legal : S → List (Event S) → S → Prop where
  | nil (s : S) : Legal s [] s
  | change {s t u : S} {tr : List (Event S)} : t ≠ s → Legal t tr u →
      Legal s (.exit s :: .enter t :: tr) u

theorem Legal.append {s t u : S} {a b : List (Event S)} (h1 : Legal s a t) (h2 : Legal t b u) :
    Legal s (a ++ b) u := by
  induction h1 with
  | nil => simpa using h2
  | change h _ ih => exact .change h (ih h2)

/-- C41.  For every machine whose exit actions are plain, every current and target state, and
whatever the entry actions do (including further changes of state, nested to any depth, and
exceptions): the observed exits and entries form a legal chain from the state before to the state
after. -/
theorem C41_transit_legal (M : Machine S E) (hx : ∀ s e, (M.onExit s e).Plain)
    (c c' : Cfg S E) (t : S) (tr : List (Event S)) (x : Bool)
    (h : Transit M c t tr c' x) : Legal c.state tr c'.state := by
  refine Transit.rec (M := M)
    (motive_1 := fun c _ tr c' _ _ => Legal c.state tr c'.state)
    (motive_2 := fun c _ tr c' _ _ => Legal c.state tr c'.state)
    ?_ ?_ ?_ ?_ ?_ ?_ ?_ h
  · intro c; exact .nil _
  · intro c t c1 c2 tr1 tr2 x hne h1 h2 _ ih2
    have hp := hx c.state c.data
    revert hp h1
    generalize M.onExit c.state c.data = p
    intro h1 hp
    cases h1 with
    | done e => exact .change hne ih2
    | call _ _ => exact hp.elim
  · intro c t c1 tr1 hne h1 _
    have hp := hx c.state c.data
    revert hp h1
    generalize M.onExit c.state c.data = p
    intro h1 hp
    cases h1 <;> exact hp.elim
  · intro c e; exact .nil _
  · intro c e; exact .nil _
  · intro c e t k c1 c2 tr1 tr2 x _ _ ih1 ih2
    exact ih1.append ih2
  · intro c e t k c1 tr1 _ ih; exact ih

/-- C41 (same state).  A change to the current state runs nothing and changes nothing. -/
theorem C41_same_state (M : Machine S E) (c c' : Cfg S E) (tr : List (Event S)) (x : Bool)
    (h : Transit M c c.state tr c' x) : tr = [] ∧ c' = c ∧ x = false := by
  cases h with
  | same => exact ⟨rfl, rfl, rfl⟩
  | go h _ _ => exact absurd rfl h
  | exitThrows h _ => exact absurd rfl h

/-- C41 (order).  A change to another state first runs the exit action of the current state, on the
entity data at that moment, then the entry action of the new state on the data the exit action left.
When the entry action does not itself change state, these are the only two actions run and the new
state is current afterwards. -/
theorem C41_exit_then_enter (M : Machine S E) (c c' : Cfg S E) (t : S) (tr : List (Event S))
    (x : Bool) (e1 e2 : E) (hne : t ≠ c.state)
    (hexit : M.onExit c.state c.data = .done e1)
    (henter : M.onEnter t e1 = .done e2)
    (h : Transit M c t tr c' x) :
    tr = [.exit c.state, .enter t] ∧ c' = ⟨t, e2⟩ ∧ x = false := by
  cases h with
  | same => exact absurd rfl hne
  | go _ h1 h2 =>
    rw [hexit] at h1
    cases h1
    simp only at h2
    rw [henter] at h2
    cases h2
    exact ⟨rfl, rfl, rfl⟩
  | exitThrows _ h1 =>
    rw [hexit] at h1
    cases h1

/-- Non-vacuity: a three-state machine whose entry action of state 1 immediately changes to 2, as
`ClientConnectionConnected` does when its owner closes the connection from the notification. -/
example : ∃ M : Machine (Fin 3) (List Nat), (∀ s e, (M.onExit s e).Plain) ∧
    Transit M ⟨0, []⟩ 1 [.exit 0, .enter 1, .exit 1, .enter 2] ⟨2, [12, 1, 11, 0]⟩ false := by
  refine ⟨{ onExit := fun s e => .done (s.val :: e)
            onEnter := fun s e => if s = 1 then .transit (11 :: e) 2 .done
              else .done ((10 + s.val) :: e) }, fun _ _ => trivial, ?_⟩
  refine Transit.go (tr1 := []) (c1 := ⟨0, [0]⟩) (by decide) (.done _ _) ?_
  refine Run.call (tr1 := [.exit 1, .enter 2]) (tr2 := []) (c1 := ⟨2, [12, 1, 11, 0]⟩) ?_ (.done _ _)
  exact Transit.go (tr1 := []) (c1 := ⟨1, [1, 11, 0]⟩) (by decide) (.done _ _) (.done _ _)

end Uscada.Fsm
