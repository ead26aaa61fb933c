import Verif.Queue
/-!
# C01: the fixed-capacity queue is a FIFO
-/

namespace Uscada.Queue

/-- Specification: a FIFO of at most `cap` elements as a plain list.  `none` = the caller
broke the rules (push on full, pop/front on empty). -/
def fifoStep {α : Type} (cap : Nat) : List α → Op α → Option (List α × Out α)
  | l, .push a => if l.length < cap then some (l ++ [a], .unit) else none
  | [], .pop => none
  | _ :: l, .pop => some (l, .unit)
  | [], .front => none
  | v :: l, .front => some (v :: l, .elem v)
  | l, .isEmpty => some (l, .bool l.isEmpty)

/-- Specification of a sequence of calls: the observations of a FIFO. -/
def fifoRun {α : Type} (cap : Nat) : List α → List (Op α) → Option (List (Out α))
  | _, [] => some []
  | l, op :: ops =>
    match fifoStep cap l op with
    | none => none
    | some (l', o) => (fifoRun cap l' ops).map (o :: ·)

private theorem run_of_holds {α : Type} {cap : Nat} (ops : List (Op α)) :
    ∀ (q : Queue α) (l : List α) (outs : List (Out α)), q.cap = cap → Holds q l →
      fifoRun cap l ops = some outs → ∃ q', q.run ops = .ok (q', outs) := by
  induction ops with
  | nil => intro q l outs _ _ h; simp [fifoRun] at h; exact ⟨q, by simp [run, h]⟩
  | cons op ops ih =>
    intro q l outs hc hq h
    simp only [fifoRun] at h
    cases op with
    | push a =>
      simp only [fifoStep] at h
      split at h
      · exact absurd h (by simp)
      · rename_i heq
        split at heq
        · rename_i hlt
          simp only [Option.some.injEq, Prod.mk.injEq] at heq
          obtain ⟨q1, hp, hh, hcap⟩ := hq.push (by omega) a
          obtain ⟨rfl, rfl⟩ := heq
          obtain ⟨os, ho, rfl⟩ := Option.map_eq_some_iff.1 h
          obtain ⟨q2, h2⟩ := ih q1 _ os (by omega) hh ho
          exact ⟨q2, by simp [run, step, hp, h2]⟩
        · simp at heq
    | pop =>
      cases l with
      | nil => simp [fifoStep] at h
      | cons v l =>
        simp only [fifoStep] at h
        obtain ⟨q1, hp, hh, hcap⟩ := hq.pop
        obtain ⟨os, ho, rfl⟩ := Option.map_eq_some_iff.1 h
        obtain ⟨q2, h2⟩ := ih q1 _ os (by omega) hh ho
        exact ⟨q2, by simp [run, step, hp, h2]⟩
    | front =>
      cases l with
      | nil => simp [fifoStep] at h
      | cons v l =>
        simp only [fifoStep] at h
        obtain ⟨os, ho, rfl⟩ := Option.map_eq_some_iff.1 h
        obtain ⟨q2, h2⟩ := ih q _ os hc hq ho
        exact ⟨q2, by simp [run, step, hq.front, h2]⟩
    | isEmpty =>
      have hs : fifoStep cap l (.isEmpty : Op α) = some (l, .bool l.isEmpty) := by
        cases l <;> simp [fifoStep]
      rw [hs] at h
      obtain ⟨os, ho, rfl⟩ := Option.map_eq_some_iff.1 h
      obtain ⟨q2, h2⟩ := ih q _ os hc hq ho
      exact ⟨q2, by simp [run, step, hq.empty_iff, h2]⟩

/-- C01.  For every capacity and every sequence of calls that a FIFO of that capacity allows,
the ring buffer finishes without undefined behaviour and every observation (elements read,
emptiness answers) is exactly the FIFO's. -/
theorem C01_queue_is_fifo {α : Type} (cap : Nat) (h0 : 0 < cap) (h1 : cap < szMod)
    (ops : List (Op α)) (outs : List (Out α)) (h : fifoRun cap [] ops = some outs) :
    ∃ q, (create α cap).run ops = .ok (q, outs) :=
  run_of_holds ops _ _ _ rfl (holds_create h0 h1) h

/-- Non-vacuity: a history that wraps around a queue of capacity 2. -/
example : fifoRun 2 [] [Op.push 7, .push 8, .front, .pop, .push 9, .front, .pop, .front, .pop,
      .isEmpty]
    = some [.unit, .unit, .elem 7, .unit, .unit, .elem 8, .unit, .elem 9, .unit, .bool true] := by
  decide

/-- The occupancy limit is needed: pushing a third element into a queue of capacity 2 makes
the oldest element unobservable. -/
theorem C01_overfull_push_violated :
    ∃ q, (create Nat 2).run [.push 7, .push 8, .push 9, .front] = .ok (q, [.unit, .unit, .unit, .elem 9]) :=
  ⟨_, rfl⟩

/-- The occupancy limit is needed: popping an empty queue makes it report non-empty. -/
theorem C01_underflow_pop_violated :
    ∃ q, (create Nat 2).run [.pop, .isEmpty] = .ok (q, [.unit, .bool false]) :=
  ⟨_, by simp [run, step, pop, empty, create, szMod]; rfl⟩

/-- A queue of capacity 0 cannot be used at all. -/
theorem C01_capacity_zero_ub {α : Type} (a : α) : (create α 0).push a = .ub := rfl

end Uscada.Queue
