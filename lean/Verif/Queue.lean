import Verif.Base
/-!
# `app::Queue` (common/utils/Queue.hpp)

Fixed-capacity ring buffer used for free/busy identifier lists everywhere in the system.
-/

namespace Uscada

/-- common/utils/Queue.hpp:45-50.  `cells i = none` is a reserved but never written slot.
The C++ class only `reserve`s its vector and then indexes it, which the library formally
forbids although the storage exists; the model treats the reserved storage as usable. -/
structure Queue (α : Type) where
  cap : Nat
  cells : Nat → Option α
  len : Nat
  first : Nat
  last : Nat

namespace Queue

variable {α : Type}

/-- Modulus of `std::size_t`. -/
def szMod : Nat := 2 ^ 64

/-- common/utils/Queue.hpp:16-23, constructor. -/
def create (α : Type) (cap : Nat) : Queue α :=
  { cap := cap, cells := fun _ => none, len := 0, first := 0, last := 0 }

/-- common/utils/Queue.hpp:26-31.  No check that the queue is full.  An index outside the
reserved storage and `% 0` are undefined behaviour; `len += 1` wraps. -/
def push (q : Queue α) (val : α) : Exec (Queue α) :=
  if q.last < q.cap then
    .ok { q with
      cells := fun i => if i = q.last then some val else q.cells i
      last := (q.last + 1) % q.cap
      len := (q.len + 1) % szMod }
  else .ub

/-- common/utils/Queue.hpp:32-36.  No check that the queue is empty; `len -= 1` wraps. -/
def pop (q : Queue α) : Exec (Queue α) :=
  if q.cap = 0 then .ub
  else .ok { q with first := (q.first + 1) % q.cap, len := (q.len + szMod - 1) % szMod }

/-- common/utils/Queue.hpp:37-40.  Reading a slot that was never written is undefined. -/
def front (q : Queue α) : Exec α :=
  if q.first < q.cap then
    match q.cells q.first with
    | some v => .ok v
    | none => .ub
  else .ub

/-- common/utils/Queue.hpp:41-44. -/
def empty (q : Queue α) : Bool := q.len == 0

/-- The ring buffer `q` holds exactly the elements `l`, oldest first. -/
structure Holds (q : Queue α) (l : List α) : Prop where
  pos : 0 < q.cap
  small : q.cap < szMod
  fits : l.length ≤ q.cap
  hlen : q.len = l.length
  hfirst : q.first < q.cap
  hlast : q.last = (q.first + l.length) % q.cap
  hcells : ∀ i (h : i < l.length), q.cells ((q.first + i) % q.cap) = some l[i]

theorem holds_create {cap : Nat} (h0 : 0 < cap) (h1 : cap < szMod) :
    Holds (create α cap) [] where
  pos := h0
  small := h1
  fits := by simp
  hlen := by simp [create]
  hfirst := h0
  hlast := by simp [create]
  hcells := by simp

theorem Holds.empty_iff {q : Queue α} {l : List α} (h : Holds q l) :
    q.empty = l.isEmpty := by
  unfold Queue.empty
  rw [h.hlen]
  cases l <;> simp

private theorem mod_add_ne {c f i n : Nat} (hin : i < n) (hn : n < c) :
    (f + i) % c ≠ (f + n) % c := by
  intro h
  have h2 := Nat.sub_mod_eq_zero_of_mod_eq h.symm
  rw [show f + n - (f + i) = n - i by omega, Nat.mod_eq_of_lt (by omega)] at h2
  omega

theorem Holds.push {q : Queue α} {l : List α} (h : Holds q l) (hlt : l.length < q.cap) (v : α) :
    ∃ q', q.push v = .ok q' ∧ Holds q' (l ++ [v]) ∧ q'.cap = q.cap := by
  have hl : q.last < q.cap := by rw [h.hlast]; exact Nat.mod_lt _ h.pos
  refine ⟨_, if_pos hl, ?_, rfl⟩
  have hs := h.small
  constructor
  · exact h.pos
  · exact h.small
  · simp; omega
  · simp only [h.hlen, List.length_append, List.length_singleton]
    exact Nat.mod_eq_of_lt (by omega)
  · exact h.hfirst
  · simp only [h.hlast, List.length_append, List.length_singleton, Nat.mod_add_mod, Nat.add_assoc]
  · intro i hi
    simp only [List.length_append, List.length_singleton] at hi
    by_cases hil : i < l.length
    · have hne : (q.first + i) % q.cap ≠ q.last := by
        rw [h.hlast]; exact mod_add_ne hil hlt
      simp [hne, List.getElem_append_left hil, h.hcells i hil]
    · have : i = l.length := by omega
      subst this
      simp [h.hlast]

theorem Holds.pop {q : Queue α} {v : α} {l : List α} (h : Holds q (v :: l)) :
    ∃ q', q.pop = .ok q' ∧ Holds q' l ∧ q'.cap = q.cap := by
  have hp := h.pos
  have hs := h.small
  have hf := h.fits
  have hlen := h.hlen
  simp only [List.length_cons] at hf hlen
  refine ⟨_, if_neg (Nat.ne_of_gt hp), ?_, rfl⟩
  constructor
  · exact hp
  · exact hs
  · show l.length ≤ q.cap; omega
  · simp only [hlen]
    have : l.length + 1 + szMod - 1 = l.length + szMod := by omega
    rw [this, Nat.add_mod_right]
    exact Nat.mod_eq_of_lt (by omega)
  · exact Nat.mod_lt _ hp
  · simp only [h.hlast, List.length_cons, Nat.mod_add_mod]; congr 1; omega
  · intro i hi
    have := h.hcells (i + 1) (by simp; omega)
    simp only [List.getElem_cons_succ] at this
    simp only [Nat.mod_add_mod]
    rw [← this]
    congr 2; omega

theorem Holds.front {q : Queue α} {v : α} {l : List α} (h : Holds q (v :: l)) :
    q.front = .ok v := by
  have := h.hcells 0 (by simp)
  simp only [Nat.add_zero, Nat.mod_eq_of_lt h.hfirst] at this
  simp [Queue.front, h.hfirst, this]

/-! ## Sequences of calls -/

/-- One call on a queue. -/
inductive Op (α : Type) where
  | push (a : α)
  | pop
  | front
  | isEmpty
deriving DecidableEq, Repr

/-- What the caller observes. -/
inductive Out (α : Type) where
  | unit
  | elem (a : α)
  | bool (b : Bool)
deriving DecidableEq, Repr

/-- A single call on the modelled queue. -/
def step (q : Queue α) : Op α → Exec (Queue α × Out α)
  | .push a => do let q' ← q.push a; pure (q', .unit)
  | .pop => do let q' ← q.pop; pure (q', .unit)
  | .front => do let v ← q.front; pure (q, .elem v)
  | .isEmpty => .ok (q, .bool q.empty)

/-- A sequence of calls; collects the observations. -/
def run (q : Queue α) : List (Op α) → Exec (Queue α × List (Out α))
  | [] => .ok (q, [])
  | op :: ops => do
    let (q1, o) ← q.step op
    let (q2, os) ← run q1 ops
    pure (q2, o :: os)

end Queue

end Uscada
