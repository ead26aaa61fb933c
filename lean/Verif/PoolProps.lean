import Verif.Pool
/-!
# C02: pool identifiers are never held by two owners
-/

namespace Uscada.Pool

/-- Histories of a pool in which owners release only identifiers they hold.  The second index
is the list of identifiers handed out and not yet given back; it is computed from the observable
results of the calls only. -/
inductive History (base cap : Nat) : Pool → List Nat → Prop where
  | init {p} : create base cap = .ok p → History base cap p []
  | allocated {p held p' u} : History base cap p held → p.alloc = .ok (p', some u) →
      History base cap p' (u :: held)
  | refused {p held p'} : History base cap p held → p.alloc = .ok (p', none) →
      History base cap p' held
  | released {p held p' u} : History base cap p held → u ∈ held → p.release u = .ok p' →
      History base cap p' (held.erase u)

private theorem inv_of_history {base cap : Nat} (h0 : 0 < cap) (h1 : cap < Queue.szMod)
    {p : Pool} {held : List Nat} (h : History base cap p held) : Inv base cap p held := by
  induction h with
  | init hc =>
    obtain ⟨p', h2, h3⟩ := inv_create (base := base) h0 h1
    rw [h2] at hc; cases hc; exact h3
  | allocated _ ha ih =>
    rcases ih.alloc with ⟨_, h2⟩ | ⟨p2, u2, h2, _, _, _, _, h3⟩
    · rw [h2] at ha; cases ha
    · rw [h2] at ha; cases ha; exact h3
  | refused _ ha ih =>
    rcases ih.alloc with ⟨_, h2⟩ | ⟨p2, u2, h2, _⟩
    · rw [h2] at ha; cases ha; exact ih
    · rw [h2] at ha; cases ha
  | released _ hu hr ih =>
    obtain ⟨p2, h2, h3⟩ := ih.release hu
    rw [h2] at hr; cases hr; exact h3

/-- C02.  After any history in which owners release only what they hold: the held identifiers are
pairwise distinct and each names a pooled object; the next `alloc` ends normally, refuses exactly
when all `cap` identifiers are held, and otherwise returns an identifier that nobody holds and that
names its own pooled object; and any held identifier can be released. -/
theorem C02_identifiers_exclusive (base cap : Nat) (h0 : 0 < cap) (h1 : cap < Queue.szMod)
    (p : Pool) (held : List Nat) (h : History base cap p held) :
    held.Nodup ∧
    (∀ u ∈ held, p.get u = .ok (u - base)) ∧
    (∃ p' r, p.alloc = .ok (p', r) ∧
      (r = none ↔ held.length = cap) ∧
      (∀ u, r = some u → u ∉ held ∧ base ≤ u ∧ u < base + cap ∧ p'.get u = .ok (u - base))) ∧
    (∀ u ∈ held, ∃ p', p.release u = .ok p') := by
  have hi := inv_of_history h0 h1 h
  have hn := hi.nodup
  refine ⟨hn.1, fun u hu => hi.get (hn.2.1 u hu).1 (hn.2.1 u hu).2, ?_, fun u hu => ?_⟩
  · rcases hi.alloc with ⟨h2, h3⟩ | ⟨p', u, h2, h3, h4, h5, h6, h7⟩
    · exact ⟨p, none, h3, by simp [h2], by simp⟩
    · refine ⟨p', some u, h2, by simp; omega, ?_⟩
      intro v hv
      cases hv
      exact ⟨h3, h5, h6, h7.get h5 h6⟩
  · obtain ⟨p', h2, _⟩ := hi.release hu
    exact ⟨p', h2⟩

/-- A pool of any positive capacity can be created, so histories exist. -/
theorem C02_create_ok (base cap : Nat) (h0 : 0 < cap) (h1 : cap < Queue.szMod) :
    ∃ p, create base cap = .ok p ∧ History base cap p [] := by
  obtain ⟨p, h, _⟩ := inv_create (base := base) h0 h1
  exact ⟨p, h, .init h⟩

/-- Result identifiers of a fixed script of calls (for concrete checks). -/
def script (p : Pool) : List (Option Nat) → Exec (List (Option Nat))
  | [] => .ok []
  | none :: rest => do
    let (p', r) ← p.alloc
    let rs ← script p' rest
    pure (r :: rs)
  | some u :: rest => do
    let p' ← p.release u
    script p' rest

/-- Non-vacuity: a history of a pool with identifiers 1 and 2 in which an identifier is reused and
the pool is exhausted. -/
example : (create 1 2 >>= fun p => script p [none, none, none, some 1, none, none])
    = .ok [some 1, some 2, none, some 1, none] := by decide +kernel

/-- The rule "release only what you hold" is needed: after a double release the same identifier is
given to two owners. -/
theorem C02_double_release_violated :
    (create 0 4 >>= fun p => script p [none, none, some 0, some 0, none, none, none, none])
      = .ok [some 0, some 1, some 2, some 3, some 0, some 0] := by decide +kernel

/-- Asking the OPC UA pool (identifiers from 1) for object 0, or any pool for an identifier past the
end, is undefined behaviour: `get` does not check. -/
theorem C02_get_unchecked_ub (p : Pool) (uid : Nat) (h : uid < p.base ∨ p.base + p.objects ≤ uid) :
    p.get uid = .ub := by
  unfold get
  split
  · omega
  · rfl

end Uscada.Pool
