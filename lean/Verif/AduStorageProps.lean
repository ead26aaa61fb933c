import Verif.AduStorage
/-!
# C13: pending Modbus requests are kept in order with their data
-/

namespace Uscada.Modbus.AduStorage

/-- Specification: at most 64 pending requests as a plain list.  `none` = the caller broke the rules
(reads the oldest request of an empty store, or announces more bytes than it provides). -/
def specStep : List Pending → Op → Option (List Pending × Out)
  | l, .push r =>
    if l.length < 64 ∧ r.numBytes ≤ 260 then
      match r.data with
      | some d =>
        if r.numBytes ≤ d.length then
          some (l ++ [⟨r.clientId, r.transactId, r.func, r.addr, r.startItem, r.numItems, r.numBytes,
            d.take r.numBytes⟩], .bool true)
        else none
      | none =>
        some (l ++ [⟨r.clientId, r.transactId, r.func, r.addr, r.startItem, r.numItems, r.numBytes,
          []⟩], .bool true)
    else some (l, .bool false)
  | [], .front => none
  | p :: l, .front => some (p :: l, .req p)
  | [], .pop => some ([], .unit)
  | _ :: l, .pop => some (l, .unit)
  | l, .isEmpty => some (l, .bool l.isEmpty)

/-- Specification of a sequence of calls. -/
def specRun : List Pending → List Op → Option (List Out)
  | _, [] => some []
  | l, op :: ops =>
    match specStep l op with
    | none => none
    | some (l', o) => (specRun l' ops).map (o :: ·)

theorem step_of_rep {s : AduStorage} {l l' : List Pending} {op : Op} {o : Out} (h : Rep s l)
    (hs : specStep l op = some (l', o)) : ∃ s', s.step op = .ok (s', o) ∧ Rep s' l' := by
  cases op with
  | push r =>
    have hle := h.length_le
    have hC : capacity = 64 := rfl
    have hA : maxAduLen = 260 := rfl
    simp only [specStep] at hs
    by_cases hok : l.length < 64 ∧ r.numBytes ≤ 260
    · rw [if_pos hok] at hs
      have hpush : ∀ (hd : ∀ d, r.data = some d → r.numBytes ≤ d.length),
          ∃ s', s.step (.push r) = .ok (s', .bool true) ∧ Rep s' (l ++ [pendingOf r]) := by
        intro hd
        obtain ⟨s', h1, h2⟩ := h.push (by omega) r (by omega) hd
        exact ⟨s', by simp [step, h1], h2⟩
      cases hdd : r.data with
      | none =>
        simp only [hdd, Option.some.injEq, Prod.mk.injEq] at hs
        obtain ⟨rfl, rfl⟩ := hs
        obtain ⟨s', h1, h2⟩ := hpush (by simp [hdd])
        refine ⟨s', h1, ?_⟩
        simpa [pendingOf, hdd] using h2
      | some d =>
        simp only [hdd] at hs
        by_cases hl : r.numBytes ≤ d.length
        · rw [if_pos hl] at hs
          simp only [Option.some.injEq, Prod.mk.injEq] at hs
          obtain ⟨rfl, rfl⟩ := hs
          obtain ⟨s', h1, h2⟩ := hpush (by simp [hdd, hl])
          refine ⟨s', h1, ?_⟩
          simpa [pendingOf, hdd] using h2
        · rw [if_neg hl] at hs; simp at hs
    · rw [if_neg hok] at hs
      simp only [Option.some.injEq, Prod.mk.injEq] at hs
      obtain ⟨rfl, rfl⟩ := hs
      by_cases hfull : l.length = capacity
      · exact ⟨s, by simp [step, h.push_full hfull], h⟩
      · obtain ⟨s', h1, h2⟩ := h.push_oversize (by omega) r (by omega)
        exact ⟨s', by simp [step, h1], h2⟩
  | front =>
    cases l with
    | nil => simp [specStep] at hs
    | cons p l =>
      simp only [specStep, Option.some.injEq, Prod.mk.injEq] at hs
      obtain ⟨rfl, rfl⟩ := hs
      obtain ⟨a, h1, h2, _⟩ := h.front
      exact ⟨s, by simp [step, h1, h2], h⟩
  | pop =>
    cases l with
    | nil =>
      simp only [specStep, Option.some.injEq, Prod.mk.injEq] at hs
      obtain ⟨rfl, rfl⟩ := hs
      exact ⟨s, by simp [step, h.pop_empty], h⟩
    | cons p l =>
      simp only [specStep, Option.some.injEq, Prod.mk.injEq] at hs
      obtain ⟨rfl, rfl⟩ := hs
      obtain ⟨s', h1, h2⟩ := h.pop
      exact ⟨s', by simp [step, h1], h2⟩
  | isEmpty =>
    have : specStep l .isEmpty = some (l, .bool l.isEmpty) := by cases l <;> rfl
    rw [this] at hs
    simp only [Option.some.injEq, Prod.mk.injEq] at hs
    obtain ⟨rfl, rfl⟩ := hs
    exact ⟨s, by simp [step, h.empty], h⟩

theorem run_of_rep (ops : List Op) : ∀ (s : AduStorage) (l : List Pending) (outs : List Out), Rep s l →
    specRun l ops = some outs → ∃ s', s.run ops = .ok (s', outs) := by
  induction ops with
  | nil => intro s l outs _ h; simp [specRun] at h; exact ⟨s, by simp [run, h]⟩
  | cons op ops ih =>
    intro s l outs hr h
    simp only [specRun] at h
    split at h
    · simp at h
    · rename_i l' o heq
      obtain ⟨os, ho, rfl⟩ := Option.map_eq_some_iff.1 h
      obtain ⟨s1, h1, h2⟩ := step_of_rep hr heq
      obtain ⟨s2, h3⟩ := ih s1 l' os h2 ho
      exact ⟨s2, by simp [run, h1, h3]⟩

/-- C13.  For every sequence of calls in which the oldest request is read only when there is one and
callers provide the bytes they announce, the store never touches memory it must not, accepts a request
exactly when fewer than 64 are pending and it has at most 260 bytes, and returns the pending requests
in submission order with exactly the fields and bytes they were submitted with; rejected requests
change nothing observable. -/
theorem C13_pending_requests_in_order (mem : Mem) (ops : List Op) (outs : List Out)
    (h : specRun [] ops = some outs) :
    ∃ s0 s, create mem = .ok s0 ∧ s0.run ops = .ok (s, outs) := by
  obtain ⟨s0, h1, h2⟩ := rep_create mem
  obtain ⟨s, h3⟩ := run_of_rep ops s0 [] outs h2 h
  exact ⟨s0, s, h1, h3⟩

/-- A sample request. -/
def sample (n : Nat) (d : List UInt8) : CallerReq :=
  { clientId := n, transactId := 10 + n, func := 16, addr := 1, startItem := 0, numItems := 1,
    numBytes := d.length, data := some d }

/-- Non-vacuity: two requests, one rejected for its size in between, and reuse of the slots. -/
example : specRun []
    [.push (sample 1 [1, 2]), .push { sample 3 [] with numBytes := 261 }, .push (sample 2 [3, 4, 5]),
      .front, .pop, .front, .pop, .isEmpty] =
    some [.bool true, .bool false, .bool true,
      .req ⟨1, 11, 16, 1, 0, 1, 2, [1, 2]⟩, .unit, .req ⟨2, 12, 16, 1, 0, 1, 3, [3, 4, 5]⟩, .unit,
      .bool true] := by decide

end Uscada.Modbus.AduStorage
