import Verif.Queue
/-!
# Identifier pools

Three classes share one algorithm: `reactor::EntityPool` (common/reactor/EntityPool.hpp:14-59,
identifiers `0 .. capacity-1`), `UaEntityPool` (common/ua/common/UaEntityPool.hpp:14-62,
identifiers `1 .. capacity`, object `uid - 1`) and `ModbusSessionPool`
(modbus/server/ModbusSessionPool.cpp:7-42, identifiers `0 .. capacity-1`).  The model is
parameterised by the first identifier `base`.
-/

namespace Uscada

/-- The pool's free identifier queue and the number of pooled objects. -/
structure Pool where
  base : Nat
  objects : Nat
  ids : Queue Nat

namespace Pool

/-- The constructor loop: push the identifiers `from, from+1, ...` (`n` of them).
EntityPool.hpp:23-27, UaEntityPool.hpp:26-30, ModbusSessionPool.cpp:10-14. -/
def fill (q : Queue Nat) : Nat → Nat → Exec (Queue Nat)
  | _, 0 => .ok q
  | uid, n + 1 => do
    let q' ← q.push uid
    fill q' (uid + 1) n

/-- Constructor.  EntityPool.hpp:18-28, UaEntityPool.hpp:20-31, ModbusSessionPool.cpp:7-15. -/
def create (base capacity : Nat) : Exec Pool := do
  let ids ← fill (Queue.create Nat capacity) base capacity
  pure { base := base, objects := capacity, ids := ids }

/-- EntityPool.hpp:32-42, UaEntityPool.hpp:35-45, ModbusSessionPool.cpp:21-31.
`none` models the result `false`. -/
def alloc (p : Pool) : Exec (Pool × Option Nat) :=
  if p.ids.empty then .ok (p, none)
  else do
    let uid ← p.ids.front
    let ids ← p.ids.pop
    pure ({ p with ids := ids }, some uid)

/-- EntityPool.hpp:44-48, UaEntityPool.hpp:47-51, ModbusSessionPool.cpp:33-37: the identifier
is queued without any check. -/
def release (p : Pool) (uid : Nat) : Exec Pool := do
  let ids ← p.ids.push uid
  pure { p with ids := ids }

/-- EntityPool.hpp:50-53, UaEntityPool.hpp:53-56 (`pool[uid - 1]`), ModbusSessionPool.cpp:39-42: index
of the object; unchecked vector indexing outside the range is undefined behaviour. -/
def get (p : Pool) (uid : Nat) : Exec Nat :=
  if p.base ≤ uid ∧ uid - p.base < p.objects then .ok (uid - p.base) else .ub

/-- Internal relation: `free` are the queued identifiers and `held` those handed out. -/
structure Inv (base cap : Nat) (p : Pool) (held : List Nat) : Prop where
  hbase : p.base = base
  hobj : p.objects = cap
  hcap : p.ids.cap = cap
  part : ∃ free, p.ids.Holds free ∧ (free ++ held).Perm (List.range' base cap)

theorem fill_holds (n : Nat) : ∀ (q : Queue Nat) (l : List Nat) (uid : Nat), q.Holds l →
    l.length + n ≤ q.cap →
    ∃ q', fill q uid n = .ok q' ∧ q'.Holds (l ++ List.range' uid n) ∧ q'.cap = q.cap := by
  induction n with
  | zero => intro q l uid h _; exact ⟨q, rfl, by simpa using h, rfl⟩
  | succ n ih =>
    intro q l uid h hl
    obtain ⟨q1, h1, h2, h3⟩ := h.push (by omega) uid
    obtain ⟨q2, h4, h5, h6⟩ := ih q1 _ (uid + 1) h2 (by simp; omega)
    refine ⟨q2, by simp [fill, h1, h4], ?_, by omega⟩
    simpa [List.range'_succ] using h5

theorem inv_create {base cap : Nat} (h0 : 0 < cap) (h1 : cap < Queue.szMod) :
    ∃ p, create base cap = .ok p ∧ Inv base cap p [] := by
  obtain ⟨q, h2, h3, h4⟩ := fill_holds cap (Queue.create Nat cap) [] base
    (Queue.holds_create h0 h1) (by simp [Queue.create])
  refine ⟨_, by simp [create, h2]; rfl, rfl, rfl, h4, _, h3, by simp⟩

theorem Inv.alloc {base cap : Nat} {p : Pool} {held : List Nat} (h : Inv base cap p held) :
    (held.length = cap ∧ p.alloc = .ok (p, none)) ∨
    ∃ p' u, p.alloc = .ok (p', some u) ∧ u ∉ held ∧ held.length < cap ∧ base ≤ u ∧ u < base + cap ∧
      Inv base cap p' (u :: held) := by
  obtain ⟨free, hf, hp⟩ := h.part
  have hlen := hp.length_eq
  simp at hlen
  cases free with
  | nil => left; exact ⟨by simpa using hlen, by simp [Pool.alloc, hf.empty_iff]⟩
  | cons u free =>
    right
    obtain ⟨q', h1, h2, h3⟩ := hf.pop
    have hnd : ((u :: free) ++ held).Nodup := hp.nodup_iff.2 (List.nodup_range' (step := 1))
    have hmem : u ∈ List.range' base cap := hp.mem_iff.1 (by simp)
    simp at hmem
    refine ⟨{ p with ids := q' }, u, by simp [Pool.alloc, hf.empty_iff, hf.front, h1], ?_, ?_, hmem.1, hmem.2, ?_⟩
    · simp at hnd; exact hnd.1.2
    · simp at hlen; omega
    · refine ⟨h.hbase, h.hobj, by simp [h3, h.hcap], free, h2, ?_⟩
      exact (List.perm_middle (l₁ := free) (l₂ := held) (a := u)).trans hp

theorem Inv.nodup {base cap : Nat} {p : Pool} {held : List Nat} (h : Inv base cap p held) :
    held.Nodup ∧ (∀ u ∈ held, base ≤ u ∧ u < base + cap) ∧ held.length ≤ cap := by
  obtain ⟨free, hf, hp⟩ := h.part
  have hnd : (free ++ held).Nodup := hp.nodup_iff.2 (List.nodup_range' (step := 1))
  refine ⟨(List.nodup_append.1 hnd).2.1, fun u hu => ?_, ?_⟩
  · have : u ∈ List.range' base cap := hp.mem_iff.1 (by simp [hu])
    simpa using this
  · have := hp.length_eq; simp at this; omega

theorem Inv.release {base cap : Nat} {p : Pool} {held : List Nat} (h : Inv base cap p held)
    {u : Nat} (hu : u ∈ held) :
    ∃ p', p.release u = .ok p' ∧ Inv base cap p' (held.erase u) := by
  obtain ⟨free, hf, hp⟩ := h.part
  have hlen := hp.length_eq
  have hpos : 0 < held.length := List.length_pos_of_mem hu
  simp at hlen
  obtain ⟨q', h1, h2, h3⟩ := hf.push (by rw [h.hcap]; omega) u
  refine ⟨{ p with ids := q' }, by simp [Pool.release, h1], h.hbase, h.hobj, by simp [h3, h.hcap],
    _, h2, ?_⟩
  have : (free ++ [u] ++ held.erase u).Perm (free ++ held) := by
    rw [List.append_assoc]
    exact (List.Perm.append_left free (by simpa using (List.perm_cons_erase hu).symm))
  exact this.trans hp

theorem Inv.get {base cap : Nat} {p : Pool} {held : List Nat} (h : Inv base cap p held)
    {u : Nat} (h1 : base ≤ u) (h2 : u < base + cap) : p.get u = .ok (u - base) := by
  simp [Pool.get, h.hbase, h.hobj, h1]; omega

end Pool

end Uscada
