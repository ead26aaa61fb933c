import Verif.QueueProps
/-!
# `UaEntityPool` (common/ua/common/UaEntityPool.hpp): the identifiers

The pool owns 32 objects with the identifiers 1 to 32 and a queue of the free ones.  The objects are modelled by the
users of this module; here are only the identifiers.
-/

namespace Uscada.Ua

/-- UaEntityPool.hpp:17. -/
def poolCap : Nat := 32

/-- The loop of UaEntityPool.hpp:26-30, from identifier `i`, `n` rounds. -/
def fillIds (q : Queue Nat) : Nat → Nat → Exec (Queue Nat)
  | _, 0 => .ok q
  | i, n + 1 => do
    let q' ← q.push i
    fillIds q' (i + 1) n

/-- UaEntityPool.hpp:20-31. -/
def Pool.create : Exec (Queue Nat) := fillIds (Queue.create Nat poolCap) 1 poolCap

/-- UaEntityPool.hpp:35-45. -/
def Pool.alloc (q : Queue Nat) : Exec (Option Nat × Queue Nat) :=
  if q.empty then .ok (none, q)
  else do
    let uid ← q.front
    let q' ← q.pop
    pure (some uid, q')

/-- UaEntityPool.hpp:47-51. -/
def Pool.release (q : Queue Nat) (uid : Nat) : Exec (Queue Nat) := q.push uid

/-- UaEntityPool.hpp:53-56: `pool[uid - 1]` is defined for the identifiers of the pool only. -/
def Pool.valid (uid : Nat) : Prop := 1 ≤ uid ∧ uid ≤ poolCap

instance (uid : Nat) : Decidable (Pool.valid uid) := inferInstanceAs (Decidable (_ ∧ _))

/-- A pool with capacity 32 whose free identifiers are `l`, all different and all of the pool. -/
structure Pool.Free (q : Queue Nat) (l : List Nat) : Prop where
  holds : Queue.Holds q l
  cap : q.cap = poolCap
  nodup : l.Nodup
  ids : ∀ i ∈ l, Pool.valid i

namespace Pool

theorem length_le_of_nodup : ∀ {n : Nat} {l : List Nat}, l.Nodup → (∀ i ∈ l, 1 ≤ i ∧ i ≤ n) → l.length ≤ n
  | 0, [], _, _ => by simp
  | 0, a :: l, _, h => by have := h a (by simp); omega
  | n + 1, l, hn, h => by
    by_cases hm : n + 1 ∈ l
    · have h1 : (l.erase (n + 1)).length = l.length - 1 := by simp [List.length_erase_of_mem hm]
      have h2 : (l.erase (n + 1)).length ≤ n := by
        apply length_le_of_nodup (hn.erase _)
        intro i hi
        rw [hn.mem_erase_iff] at hi
        have := h i hi.2
        omega
      omega
    · have : l.length ≤ n := by
        apply length_le_of_nodup hn
        intro i hi
        have := h i hi
        have : i ≠ n + 1 := fun e => hm (e ▸ hi)
        omega
      omega

/-- There is room for an identifier that is not free. -/
theorem Free.room {q : Queue Nat} {l : List Nat} (h : Free q l) {uid : Nat} (hv : valid uid) (hu : uid ∉ l) :
    l.length < q.cap := by
  have : (uid :: l).length ≤ poolCap := by
    apply length_le_of_nodup (List.nodup_cons.2 ⟨hu, h.nodup⟩)
    intro i hi
    rcases List.mem_cons.1 hi with e | e
    · exact e ▸ hv
    · exact h.ids i e
  rw [h.cap]
  exact this

theorem Free.release {q : Queue Nat} {l : List Nat} (h : Free q l) {uid : Nat} (hv : valid uid) (hu : uid ∉ l) :
    ∃ q', Pool.release q uid = .ok q' ∧ Free q' (l ++ [uid]) := by
  obtain ⟨q', h1, h2, h3⟩ := h.holds.push (h.room hv hu) uid
  refine ⟨q', h1, h2, h3.trans h.cap, ?_, ?_⟩
  · rw [List.nodup_append]
    refine ⟨h.nodup, by simp, ?_⟩
    intro a ha b hb e
    simp only [List.mem_singleton] at hb
    exact hu (hb ▸ e ▸ ha)
  · intro i hi
    rcases List.mem_append.1 hi with e | e
    · exact h.ids i e
    · simp only [List.mem_singleton] at e; exact e ▸ hv

theorem Free.alloc_nil {q : Queue Nat} (h : Free q []) : Pool.alloc q = .ok (none, q) := by
  unfold Pool.alloc
  rw [if_pos (by rw [h.holds.empty_iff]; rfl)]

theorem Free.alloc_cons {q : Queue Nat} {i : Nat} {l : List Nat} (h : Free q (i :: l)) :
    ∃ q', Pool.alloc q = .ok (some i, q') ∧ Free q' l := by
  obtain ⟨q', h1, h2, h3⟩ := h.holds.pop
  refine ⟨q', ?_, h2, h3.trans h.cap, (List.nodup_cons.1 h.nodup).2, fun j hj => h.ids j (List.mem_cons_of_mem _ hj)⟩
  unfold Pool.alloc
  rw [if_neg (by rw [h.holds.empty_iff]; simp), h.holds.front, h1]
  rfl

theorem fill_ok : ∀ (n i : Nat) (q : Queue Nat) (l : List Nat), Queue.Holds q l → q.cap = poolCap →
    l.length + n ≤ poolCap → ∃ q', fillIds q i n = .ok q' ∧ Queue.Holds q' (l ++ List.range' i n) ∧ q'.cap = poolCap
  | 0, i, q, l, h, hc, _ => ⟨q, rfl, by simpa using h, hc⟩
  | n + 1, i, q, l, h, hc, hl => by
    obtain ⟨q', h1, h2, h3⟩ := h.push (by omega) i
    obtain ⟨q'', h4, h5, h6⟩ := fill_ok n (i + 1) q' (l ++ [i]) h2 (h3.trans hc) (by simp; omega)
    refine ⟨q'', ?_, ?_, h6⟩
    · simp only [fillIds, h1]
      exact h4
    · simpa [List.range'_succ, List.append_assoc] using h5

/-- A new pool hands out 1, 2, ..., 32. -/
theorem free_create : ∃ q, Pool.create = .ok q ∧ Free q (List.range' 1 poolCap) := by
  obtain ⟨q, h1, h2, h3⟩ := fill_ok poolCap 1 (Queue.create Nat poolCap) []
    (Queue.holds_create (by decide) (by decide)) rfl (by simp)
  refine ⟨q, h1, by simpa using h2, h3, List.nodup_range', ?_⟩
  intro i hi
  rw [List.mem_range'_1] at hi
  exact ⟨hi.1, by have := hi.2; unfold poolCap at *; omega⟩

end Pool

end Uscada.Ua
