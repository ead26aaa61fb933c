import Verif.Ready

/-!
# Nothing is handled behind a handler that ends the process

Epoll.cpp:64-72 and Reactor.cpp:165-178 catch exceptions only.  A handler that aborts, or does something undefined, is the last one that is
called; nothing is reported lost behind it, and no later turn does anything.
-/

namespace Uscada.Heard

variable {σ ε : Type}

/-- No handler ended the process. -/
def Lives (l : List Note) : Prop := ∀ x, Note.ended x ∉ l

theorem lives_took (b : Bool) (x : Src) : Lives (tookNote b x) := by
  intro y hy
  cases b
  · cases hy
  · cases List.mem_singleton.mp hy

/-- Behind a list in which the process lives, the end can stand only in what follows. -/
theorem end_behind {p q a b : List Note} {x : Src} (hp : Lives p) (h : p ++ q = a ++ .ended x :: b) : ∃ a', q = a' ++ .ended x :: b := by
  rcases List.append_eq_append_iff.mp h with ⟨r, h1, h2⟩ | ⟨r, h1, h2⟩
  · exact ⟨r, h2⟩
  · cases r with
    | nil => exact ⟨[], by simpa using h2.symm⟩
    | cons c r =>
      injection h2 with h2 _
      exact absurd (by rw [h1, ← h2]; simp) (hp x)

/-- One batch: it says that the process ended exactly when a handler ended it, and that handler is the last. -/
theorem dispatch_end (h : Handlers σ ε) (e : Src → ε) : ∀ (xs : List Src) (s : σ),
    ((dispatch h e s xs).ended = false → Lives (dispatch h e s xs).notes) ∧
    ∀ a x b, (dispatch h e s xs).notes = a ++ .ended x :: b → b = [] ∧ (dispatch h e s xs).ended = true
  | [], s => ⟨fun _ _ hx => (nomatch hx), fun a x b hx => by cases a <;> cases hx⟩
  | y :: xs, s => by
    have ht := lives_took (h.takes s y (e y)) y
    have dead : ∀ a x b, tookNote (h.takes s y (e y)) y ++ [.ended y] = a ++ .ended x :: b → b = [] := by
      intro a x b hx
      obtain ⟨a', ha⟩ := end_behind ht hx
      cases a' with
      | nil => injection ha with _ ha; exact ha.symm
      | cons c a' => injection ha with _ ha; cases a' <;> cases ha
    unfold dispatch
    rcases hr : h.react s y (e y) with ⟨r, s'⟩
    cases r with
    | ok u =>
      obtain ⟨h1, h2⟩ := dispatch_end h e xs s'
      refine ⟨fun hf z hz => ?_, fun a x b hx => ?_⟩
      · rcases List.mem_append.mp hz with hz | hz
        · exact ht z hz
        · rcases List.mem_cons.mp hz with hz | hz
          · cases hz
          · exact h1 hf z hz
      · obtain ⟨a', ha⟩ := end_behind ht hx
        cases a' with
        | nil => cases ha
        | cons c a' => injection ha with _ ha; exact h2 a' x b ha
    | throws =>
      have hl : Lives (tookNote (h.takes s y (e y)) y ++ .threw y :: xs.map .lost) := by
        intro z hz
        rcases List.mem_append.mp hz with hz | hz
        · exact ht z hz
        · rcases List.mem_cons.mp hz with hz | hz
          · cases hz
          · obtain ⟨_, _, hz⟩ := List.mem_map.mp hz
            cases hz
      refine ⟨fun _ => hl, fun a x b hx => ?_⟩
      have hx : tookNote (h.takes s y (e y)) y ++ .threw y :: xs.map .lost = a ++ .ended x :: b := hx
      exact absurd (by rw [hx]; simp) (hl x)
    | abort => exact ⟨fun hf => (nomatch hf), fun a x b hx => ⟨dead a x b hx, rfl⟩⟩
    | ub => exact ⟨fun hf => (nomatch hf), fun a x b hx => ⟨dead a x b hx, rfl⟩⟩

theorem run_ended (h : Handlers σ ε) {l : Loop σ} (hl : l.ended = true) : ∀ ts : List (Turn ε), run h l ts = (l, [])
  | [] => rfl
  | t :: ts => by
    have ht : turn h l t = (l, []) := by unfold turn; rw [if_pos hl]
    unfold run
    simp only [ht, run_ended h hl ts, List.append_nil]

/-- C93 (end): whatever the handlers do and whatever becomes ready, a handler that ends the process is the last that is called; nothing is
recorded behind it in its batch or in any later turn. -/
theorem C93_end_is_last (h : Handlers σ ε) : ∀ (ts : List (Turn ε)) (l : Loop σ) (a : List Note) (x : Src) (b : List Note),
    (run h l ts).2 = a ++ .ended x :: b → b = [] ∧ (run h l ts).1.ended = true
  | [], l, a, x, b, hx => by cases a <;> cases hx
  | t :: ts, l, a, x, b, hx => by
    by_cases hl : l.ended = true
    · rw [run_ended h hl] at hx
      cases a <;> cases hx
    · have hd := dispatch_end h t.env (scan l.backlog 10 l.ready).reported l.st
      have h2 : (turn h l t).2 = (dispatch h t.env l.st (scan l.backlog 10 l.ready).reported).notes := by unfold turn; rw [if_neg hl]
      have h3 : (turn h l t).1.ended = (dispatch h t.env l.st (scan l.backlog 10 l.ready).reported).ended := by unfold turn; rw [if_neg hl]
      rw [← h2, ← h3] at hd
      have hx : (turn h l t).2 ++ (run h (turn h l t).1 ts).2 = a ++ .ended x :: b := hx
      show b = [] ∧ (run h (turn h l t).1 ts).1.ended = true
      cases he : (turn h l t).1.ended with
      | true =>
        rw [run_ended h he] at hx ⊢
        rw [List.append_nil] at hx
        exact ⟨(hd.2 a x b hx).1, he⟩
      | false =>
        obtain ⟨a', ha⟩ := end_behind (hd.1 he) hx
        exact C93_end_is_last h ts _ a' x b ha

/-- Handlers that count; that of link 3 aborts. -/
def brittle : Handlers Nat Unit := { react := fun n x _ => if x = .link 3 then (.abort, n) else (.ok (), n + 1), takes := fun _ _ _ => false }

/-- The handler of link 1 is called, that of link 3 ends the process, that of link 2 is not called, neither in this turn nor in the next. -/
example : (run brittle (start 0) [⟨fun _ => (), [.link 1, .link 3, .link 2], [], []⟩, ⟨fun _ => (), [.link 5], [], []⟩, ⟨fun _ => (), [], [], []⟩]).2 =
    [.handled (.link 1), .ended (.link 3)] := by decide +kernel

end Uscada.Heard
