import Verif.Lifecycle
/-!
# C71: the program starts and ends without using destroyed objects
-/

namespace Uscada.Lifecycle

/-- The executions all of whose steps satisfy `ok`, with the number of steps. -/
inductive Run (n : Nat) (ok : Proc → Act → Prop) (p : Proc) : Nat → Proc → Prop where
  | nil : Run n ok p 0 p
  | snoc {k q a r} : Run n ok p k q → ok q a → step n q a = some (.ok r) → Run n ok p (k + 1) r

/-- The steps of an orderly program: every thread can be started and `main` does not throw; no handler is under way when the
destruction begins, and afterwards no link, timer or acceptor has an event.  Messages may still arrive. -/
structure Quiet (p : Proc) (a : Act) : Prop where
  starts : ∀ r, a = .start r → r = .ok
  raise : a ≠ .raise
  idle : a = .main → p.main = .destroying → ∀ i k m, (p.rs i).thread ≠ .inside k m
  events : ∀ i, a = .next i .fd → p.comps = true

/-- How many reactors are started. -/
def Main.started (n : Nat) : Main → Nat
  | .starting i => i
  | _ => n

/-- How many reactors are stopped. -/
def Main.stoppedUpTo (n : Nat) : Main → Nat
  | .starting _ | .running => 0
  | .stopping i => i
  | _ => n

/-- How many reactors are destroyed, with the one whose thread is joined. -/
def Main.joined : Main → Nat
  | .pools i => i
  | .core i => i + 1
  | .joining i => i
  | _ => 0

/-- The components still exist. -/
def Main.before : Main → Bool
  | .pools _ | .joining _ | .core _ | .done => false
  | _ => true

/-- The reactor the main thread is busy with exists. -/
def Main.InRange (n : Nat) : Main → Prop
  | .joining i | .core i => i < n
  | .starting i => i ≤ n
  | _ => True

/-- What holds in every state of an orderly execution. -/
structure Inv (n : Nat) (p : Proc) : Prop where
  range : p.main.InRange n
  comps : p.comps = p.main.before
  whole : p.comps = true → ∀ i, (p.rs i).pools = true ∧ (p.rs i).core = true
  gone : ∀ i, (p.rs i).core = false → (p.rs i).thread = .exited
  idle : p.comps = false → ∀ i k m, (p.rs i).thread ≠ .inside k m
  created : ∀ i, i < p.main.started n → (p.rs i).thread ≠ .absent
  stopped : ∀ i, i < p.main.stoppedUpTo n → (p.rs i).stopped = true
  joined : ∀ i, i < p.main.joined → (p.rs i).thread = .exited
  ended : p.main = .done → ∀ i, i < n → (p.rs i).thread = .exited
  none : ∀ i, n ≤ i → (p.rs i).thread = .absent

theorem inv_init (n : Nat) : Inv n init := by
  constructor <;> simp [init, Main.InRange, Main.before, Main.started, Main.stoppedUpTo, Main.joined]

@[simp] theorem put_main (p : Proc) (i : Nat) (r : RSt) : (p.put i r).main = p.main := rfl
@[simp] theorem put_comps (p : Proc) (i : Nat) (r : RSt) : (p.put i r).comps = p.comps := rfl
@[simp] theorem move_main (p : Proc) (i : Nat) (t : TSt) : (p.move i t).main = p.main := rfl
@[simp] theorem move_comps (p : Proc) (i : Nat) (t : TSt) : (p.move i t).comps = p.comps := rfl
theorem put_rs (p : Proc) (i j : Nat) (r : RSt) : (p.put i r).rs j = if j = i then r else p.rs j := rfl
@[simp] theorem move_pools (p : Proc) (i j : Nat) (t : TSt) : ((p.move i t).rs j).pools = (p.rs j).pools := by
  unfold Proc.move; rw [put_rs]; split
  · next h => rw [h]
  · rfl
@[simp] theorem move_core (p : Proc) (i j : Nat) (t : TSt) : ((p.move i t).rs j).core = (p.rs j).core := by
  unfold Proc.move; rw [put_rs]; split
  · next h => rw [h]
  · rfl
@[simp] theorem move_stopped (p : Proc) (i j : Nat) (t : TSt) : ((p.move i t).rs j).stopped = (p.rs j).stopped := by
  unfold Proc.move; rw [put_rs]; split
  · next h => rw [h]
  · rfl
theorem move_thread (p : Proc) (i j : Nat) (t : TSt) : ((p.move i t).rs j).thread = if j = i then t else (p.rs j).thread := by
  unfold Proc.move; rw [put_rs]; split <;> rfl

/-- A step of a running thread keeps the invariant, unless it ends in a handler after the destruction began. -/
theorem inv_move {n : Nat} {p : Proc} (h : Inv n p) (i : Nat) (t : TSt) (h1 : (p.rs i).thread ≠ .exited)
    (h2 : (p.rs i).thread ≠ .absent) (h3 : t ≠ .absent) (h4 : p.comps = false → ∀ k m, t ≠ .inside k m) : Inv n (p.move i t) where
  range := h.range
  comps := h.comps
  whole := by intro hc j; rw [move_pools, move_core]; exact h.whole hc j
  gone := by
    intro j hj
    rw [move_core] at hj
    rw [move_thread]
    split
    · next e => subst e; exact absurd (h.gone j hj) h1
    · exact h.gone j hj
  idle := by
    intro hc j
    rw [move_thread]
    split
    · exact h4 hc
    · exact h.idle hc j
  created := by
    intro j hj
    rw [move_thread]
    split
    · exact h3
    · exact h.created j hj
  stopped := by intro j hj; rw [move_stopped]; exact h.stopped j hj
  joined := by
    intro j hj
    rw [move_thread]
    split
    · next e => subst e; exact absurd (h.joined j hj) h1
    · exact h.joined j hj
  ended := by
    intro hd j hj
    rw [move_thread]
    split
    · next e => subst e; exact absurd (h.ended hd j hj) h1
    · exact h.ended hd j hj
  none := by
    intro j hj
    rw [move_thread]
    split
    · next e => subst e; exact absurd (h.none j hj) h2
    · exact h.none j hj

theorem inv_usable {n : Nat} {p : Proc} (h : Inv n p) (hc : p.comps = true) (i : Nat) (to : List Nat) : p.usable i to = true := by
  unfold Proc.usable
  rw [hc, (h.whole hc i).1, (h.whole hc i).2]
  simp only [Bool.and_self, Bool.true_and, List.all_eq_true]
  intro j _
  exact (h.whole hc j).2

/-- An orderly step of a reactor's thread or of the main thread is defined and keeps the invariant. -/
theorem inv_step {n : Nat} {p : Proc} (h : Inv n p) {a : Act} (hq : Quiet p a) {r : Exec Proc} (hs : step n p a = some r) :
    ∃ q, r = .ok q ∧ Inv n q := by
  cases a with
  | start r0 =>
    have := hq.starts r0 rfl
    subst this
    simp only [step] at hs
    split at hs
    · next i hm =>
      split at hs
      · next hi =>
        cases hs
        have hr := h.range; have hco := h.comps; have hcr := h.created; have hst := h.stopped; have hj := h.joined
        rw [hm] at hr hco hcr hst hj
        refine ⟨_, rfl, ⟨?_, ?_, ?_, ?_, ?_, ?_, ?_, ?_, ?_, ?_⟩⟩
        · exact hi
        · simpa [Main.before] using hco
        · intro hc j; simpa using h.whole hc j
        · intro j hj
          have hj' : (p.rs j).core = false := by simpa using hj
          rw [(h.whole hco j).2] at hj'; cases hj'
        · intro hc; rw [show ({ p.move i .top with main := Main.starting (i + 1) } : Proc).comps = p.comps from rfl, hco] at hc; cases hc
        · intro j hj
          show ((p.move i .top).rs j).thread ≠ _
          rw [move_thread]
          split
          · simp
          · exact hcr j (by simp only [Main.started] at hj ⊢; omega)
        · intro j hj; simp [Main.stoppedUpTo] at hj
        · intro j hj; simp [Main.joined] at hj
        · intro hd; cases hd
        · intro j hj
          show ((p.move i .top).rs j).thread = _
          rw [move_thread, if_neg (by omega)]
          exact h.none j hj
      · cases hs
    · cases hs
  | raise => exact absurd rfl hq.raise
  | main =>
    obtain ⟨pm, pc, rs⟩ := p
    obtain ⟨hr, hco, hw, hg, hid, hcr, hst, hj, he, hno⟩ := h
    have hi := hq.idle rfl
    cases pm with
    | starting i =>
      simp only [step] at hs
      split at hs
      · cases hs
      · cases hs
        refine ⟨_, rfl, ?_⟩
        constructor <;> simp_all [Main.InRange, Main.before, Main.started, Main.stoppedUpTo, Main.joined]
        intro j hj; exact hcr j (by omega)
    | running =>
      simp only [step] at hs
      cases hs
      refine ⟨_, rfl, ?_⟩
      constructor <;> simp_all [Main.InRange, Main.before, Main.started, Main.stoppedUpTo, Main.joined]
    | stopping i =>
      simp only [step] at hs
      split at hs
      · cases hs
        refine ⟨_, rfl, ?_⟩
        constructor <;> simp_all [Main.InRange, Main.before, Main.started, Main.stoppedUpTo, Main.joined, put_rs]
        all_goals grind
      · cases hs
        refine ⟨_, rfl, ?_⟩
        constructor <;> simp_all [Main.InRange, Main.before, Main.started, Main.stoppedUpTo, Main.joined]
        intro j hj; exact hst j (by omega)
    | lingering =>
      simp only [step] at hs
      cases hs
      refine ⟨_, rfl, ?_⟩
      constructor <;> simp_all [Main.InRange, Main.before, Main.started, Main.stoppedUpTo, Main.joined]
    | destroying =>
      simp only [step] at hs
      cases hs
      refine ⟨_, rfl, ?_⟩
      constructor <;> simp_all [Main.InRange, Main.before, Main.started, Main.stoppedUpTo, Main.joined]
    | pools i =>
      simp only [step] at hs
      split at hs
      · cases hs
        refine ⟨_, rfl, ?_⟩
        constructor <;> simp_all [Main.InRange, Main.before, Main.started, Main.stoppedUpTo, Main.joined, put_rs]
        all_goals grind
      · cases hs
        refine ⟨_, rfl, ?_⟩
        constructor <;> simp_all [Main.InRange, Main.before, Main.started, Main.stoppedUpTo, Main.joined]
        intro j hj2; exact hj j (by omega)
    | joining i =>
      simp only [step] at hs
      split at hs
      · next ht => exact absurd ht (hcr i hr)
      · next ht =>
        cases hs
        refine ⟨_, rfl, ?_⟩
        constructor <;> simp_all [Main.InRange, Main.before, Main.started, Main.stoppedUpTo, Main.joined]
        all_goals grind
      · cases hs
    | core i =>
      simp only [step] at hs
      cases hs
      refine ⟨_, rfl, ?_⟩
      constructor <;> simp_all [Main.InRange, Main.before, Main.started, Main.stoppedUpTo, Main.joined, put_rs]
      all_goals grind
    | done => simp only [step] at hs; cases hs
  | check i =>
    simp only [step] at hs
    split at hs
    · next ht =>
      split at hs
      · next hc => have := h.gone i hc; rw [ht] at this; cases this
      · cases hs
        refine ⟨_, rfl, inv_move h i _ (by simp [ht]) (by simp [ht]) ?_ ?_⟩
        · split <;> simp
        · intro _; split <;> simp
    · cases hs
  | wake i k =>
    simp only [step] at hs
    split at hs
    · next ht =>
      split at hs
      · cases hs
      · split at hs
        · next hc => have := h.gone i hc; rw [ht] at this; cases this
        · cases hs
          exact ⟨_, rfl, inv_move h i _ (by simp [ht]) (by simp [ht]) (by simp) (by simp)⟩
    · cases hs
  | next i e =>
    simp only [step] at hs
    split at hs
    · next k ht =>
      have hin : i < n := by
        apply Decidable.byContradiction; intro hn
        have := h.none i (by omega); rw [ht] at this; cases this
      split at hs
      · next m =>
        split at hs
        · next hc => have := h.gone i hc; rw [ht] at this; cases this
        · split at hs
          · cases hs
            exact ⟨_, rfl, inv_move h i _ (by simp [ht]) (by simp [ht]) (by simp) (by simp)⟩
          · next hns =>
            have hc : p.comps = true := by
              cases hc : p.comps with
              | true => rfl
              | false =>
                have hb := h.comps
                rw [hc] at hb
                have : i < p.main.stoppedUpTo n := by
                  cases hm : p.main <;> rw [hm] at hb <;> simp [Main.before] at hb <;> exact hin
                exact absurd (h.stopped i this) hns
            rw [if_pos (inv_usable h hc i [])] at hs
            cases hs
            exact ⟨_, rfl, inv_move h i _ (by simp [ht]) (by simp [ht]) (by simp) (by simp [hc])⟩
      · have hc := hq.events i rfl
        rw [if_pos (inv_usable h hc i [])] at hs
        cases hs
        exact ⟨_, rfl, inv_move h i _ (by simp [ht]) (by simp [ht]) (by simp) (by simp [hc])⟩
    · cases hs
  | again i to =>
    simp only [step] at hs
    split at hs
    · next k m ht =>
      have hc : p.comps = true := by
        cases hc : p.comps with
        | true => rfl
        | false => exact absurd ht (h.idle hc i _ _)
      rw [if_pos (inv_usable h hc i to)] at hs
      cases hs
      exact ⟨_, rfl, inv_move h i _ (by simp [ht]) (by simp [ht]) (by simp) (by simp [hc])⟩
    · cases hs
  | finish i to =>
    simp only [step] at hs
    split at hs
    · next k ht =>
      have hc : p.comps = true := by
        cases hc : p.comps with
        | true => rfl
        | false => exact absurd ht (h.idle hc i _ _)
      rw [if_pos (inv_usable h hc i to)] at hs
      cases hs
      exact ⟨_, rfl, inv_move h i _ (by simp [ht]) (by simp [ht]) (by simp) (by simp)⟩
    · cases hs
  | throws i =>
    simp only [step] at hs
    split at hs
    · next k m ht =>
      have hc : p.comps = true := by
        cases hc : p.comps with
        | true => rfl
        | false => exact absurd ht (h.idle hc i _ _)
      rw [if_pos (inv_usable h hc i [])] at hs
      cases hs
      exact ⟨_, rfl, inv_move h i _ (by simp [ht]) (by simp [ht]) (by simp) (by simp)⟩
    · cases hs
  | loop i =>
    simp only [step] at hs
    split at hs
    · next ht =>
      cases hs
      exact ⟨_, rfl, inv_move h i _ (by simp [ht]) (by simp [ht]) (by simp) (by simp)⟩
    · cases hs

theorem inv_run {n k : Nat} {p q : Proc} (h : Inv n p) (hr : Run n Quiet p k q) : Inv n q := by
  induction hr with
  | nil => exact h
  | snoc _ hq hs ih =>
    obtain ⟨q, e, hi⟩ := inv_step ih hq hs
    cases e; exact hi

/-- Some thread can always go on until the program has ended. -/
theorem inv_alive {n : Nat} {p : Proc} (h : Inv n p) (hd : p.main ≠ .done) : ∃ a q, Quiet p a ∧ step n p a = some (.ok q) := by
  have key : ∀ a, Quiet p a → (step n p a).isSome = true → ∃ a q, Quiet p a ∧ step n p a = some (.ok q) := by
    intro a hq hs
    obtain ⟨r, e⟩ := Option.isSome_iff_exists.1 hs
    obtain ⟨q, hr, _⟩ := inv_step h hq e
    exact ⟨a, q, hq, by rw [e, hr]⟩
  have quiet : ∀ a, (∀ r, a = .start r → r = .ok) → a ≠ .raise → (a = .main → p.main ≠ .destroying) → (∀ i, a ≠ .next i .fd) →
      Quiet p a := fun a h1 h2 h3 h4 => ⟨h1, h2, fun e e' => absurd e' (h3 e), fun i e => absurd e (h4 i)⟩
  cases hm : p.main with
  | starting i =>
    by_cases hi : i < n
    · exact key (.start .ok) (quiet _ (by simp) (by simp) (by simp) (by simp)) (by simp [step, hm, hi])
    · exact key .main (quiet _ (by simp) (by simp) (by simp [hm]) (by simp)) (by simp [step, hm, hi])
  | running => exact key .main (quiet _ (by simp) (by simp) (by simp [hm]) (by simp)) (by simp [step, hm])
  | stopping i =>
    refine key .main (quiet _ (by simp) (by simp) (by simp [hm]) (by simp)) ?_
    simp only [step, hm]; split <;> rfl
  | lingering => exact key .main (quiet _ (by simp) (by simp) (by simp [hm]) (by simp)) (by simp [step, hm])
  | destroying =>
    by_cases hin : ∃ i k m, (p.rs i).thread = .inside k m
    · obtain ⟨i, k, m, ht⟩ := hin
      have hu := inv_usable h (by rw [h.comps, hm]; rfl) i []
      exact key (.throws i) (quiet _ (by simp) (by simp) (by simp) (by simp)) (by simp [step, ht, hu])
    · exact key .main ⟨by simp, by simp, fun _ _ i k m ht => hin ⟨i, k, m, ht⟩, by simp⟩ (by simp [step, hm])
  | pools i =>
    refine key .main (quiet _ (by simp) (by simp) (by simp [hm]) (by simp)) ?_
    simp only [step, hm]; split <;> rfl
  | joining i =>
    have hin : i < n := by have := h.range; rw [hm] at this; exact this
    have hst : (p.rs i).stopped = true := h.stopped i (by rw [hm]; exact hin)
    cases ht : (p.rs i).thread with
    | absent => exact absurd ht (h.created i (by rw [hm]; exact hin))
    | exited => exact key .main (quiet _ (by simp) (by simp) (by simp [hm]) (by simp)) (by simp [step, hm, ht])
    | top =>
      refine key (.check i) (quiet _ (by simp) (by simp) (by simp) (by simp)) ?_
      simp only [step, ht]; split <;> rfl
    | waiting =>
      refine key (.wake i 0) (quiet _ (by simp) (by simp) (by simp) (by simp)) ?_
      simp only [step, ht]; rw [if_neg (by decide)]; split <;> rfl
    | batch k =>
      cases k with
      | zero => exact key (.loop i) (quiet _ (by simp) (by simp) (by simp) (by simp)) (by simp [step, ht])
      | succ k =>
        refine key (.next i (.messages 0)) (quiet _ (by simp) (by simp) (by simp) (by simp)) ?_
        simp only [step, ht, hst]; split <;> rfl
    | inside k m => exact absurd ht (h.idle (by rw [h.comps, hm]; rfl) i k m)
  | core i => exact key .main (quiet _ (by simp) (by simp) (by simp [hm]) (by simp)) (by simp [step, hm])
  | done => exact absurd hm hd

/-- The sum over the reactors. -/
def total (f : Nat → Nat) : Nat → Nat
  | 0 => 0
  | n + 1 => total f n + f n

/-- The most steps the thread of a stopped reactor still takes. -/
def TSt.work : TSt → Nat
  | .absent | .exited => 0
  | .top => 1
  | .waiting => 23
  | .batch k => 2 * k + 2
  | .inside k m => 2 * k + m + 3

/-- The steps of the main thread to the end. -/
def Main.work (n : Nat) : Main → Nat
  | .done => 0
  | .pools i => 3 * (n - i) + 1
  | .joining i => 3 * (n - i)
  | .core i => 3 * (n - i) - 1
  | .destroying => 3 * n + 2
  | .lingering => 3 * n + 3
  | _ => 0

/-- The most steps the program still takes. -/
def Proc.work (n : Nat) (p : Proc) : Nat := p.main.work n + total (fun i => (p.rs i).thread.work) n

theorem total_le {f g : Nat → Nat} {n : Nat} (h : ∀ i, i < n → f i ≤ g i) : total f n ≤ total g n := by
  induction n with
  | zero => exact Nat.le_refl _
  | succ n ih =>
    have := ih fun i hi => h i (by omega)
    have := h n (by omega)
    simp only [total]; omega

theorem total_lt {f g : Nat → Nat} {n i : Nat} (hi : i < n) (h : f i < g i) (hl : ∀ j, j ≠ i → f j = g j) : total f n < total g n := by
  induction n with
  | zero => omega
  | succ n ih =>
    simp only [total]
    by_cases e : i = n
    · subst e
      have := total_le (f := f) (g := g) (n := i) fun j hj => Nat.le_of_eq (hl j (by omega))
      omega
    · have := ih (by omega)
      have := hl n (by omega)
      omega

/-- The program is past `ReactorManager::stop`. -/
structure Ending (n : Nat) (p : Proc) : Prop where
  stopped : ∀ i, i < n → (p.rs i).stopped = true
  none : ∀ i, n ≤ i → (p.rs i).thread = .absent
  main : p.main = .lingering ∨ p.main = .destroying ∨ p.main.before = false
  range : p.main.InRange n

theorem ending_move {n : Nat} {p : Proc} (h : Ending n p) {i : Nat} {t : TSt} (h0 : (p.rs i).thread ≠ .absent)
    (hw : t.work < (p.rs i).thread.work) : Ending n (p.move i t) ∧ (p.move i t).work n < p.work n := by
  have hi : i < n := by
    apply Decidable.byContradiction; intro hn
    exact h0 (h.none i (by omega))
  refine ⟨⟨?_, ?_, h.main, h.range⟩, ?_⟩
  · intro j hj; rw [move_stopped]; exact h.stopped j hj
  · intro j hj; rw [move_thread, if_neg (by omega)]; exact h.none j hj
  · unfold Proc.work
    rw [move_main]
    have : total (fun j => ((p.move i t).rs j).thread.work) n < total (fun j => (p.rs j).thread.work) n := by
      refine total_lt hi ?_ ?_
      · simp only [move_thread, if_pos]; exact hw
      · intro j hj; simp only [move_thread, if_neg hj]
    omega

theorem ending_main {n : Nat} {p q : Proc} (h : Ending n p) (ht : ∀ i, (q.rs i).thread = (p.rs i).thread)
    (hs : ∀ i, (q.rs i).stopped = (p.rs i).stopped) (hm : q.main.before = false ∨ q.main = .destroying) (hr : q.main.InRange n)
    (hw : q.main.work n < p.main.work n) : Ending n q ∧ q.work n < p.work n := by
  refine ⟨⟨?_, ?_, ?_, hr⟩, ?_⟩
  · intro i hi; rw [hs]; exact h.stopped i hi
  · intro i hi; rw [ht]; exact h.none i hi
  · cases hm with
    | inl e => exact .inr (.inr e)
    | inr e => exact .inr (.inl e)
  · unfold Proc.work
    simp only [ht]; omega

/-- Once the reactors are stopped, every step of any thread brings the end nearer. -/
theorem ending_step {n : Nat} {p q : Proc} (h : Ending n p) {a : Act} (hs : step n p a = some (.ok q)) :
    Ending n q ∧ q.work n < p.work n := by
  have hmain := h.main
  cases a with
  | start r =>
    simp only [step] at hs
    split at hs
    · next hm => rw [hm] at hmain; simp [Main.before] at hmain
    · cases hs
  | raise =>
    simp only [step] at hs
    split at hs
    · next hm => rw [hm] at hmain; simp [Main.before] at hmain
    · cases hs
  | main =>
    have hr := h.range
    cases hm : p.main with
    | starting i => rw [hm] at hmain; simp [Main.before] at hmain
    | running => rw [hm] at hmain; simp [Main.before] at hmain
    | stopping i => rw [hm] at hmain; simp [Main.before] at hmain
    | lingering =>
      simp only [step, hm] at hs; cases hs
      exact ending_main h (fun _ => rfl) (fun _ => rfl) (.inr rfl) trivial (by rw [hm]; simp only [Main.work]; omega)
    | destroying =>
      simp only [step, hm] at hs; cases hs
      exact ending_main h (fun _ => rfl) (fun _ => rfl) (.inl rfl) trivial (by rw [hm]; simp only [Main.work]; omega)
    | pools i =>
      simp only [step, hm] at hs
      split at hs
      · next hi =>
        cases hs
        refine ending_main h ?_ ?_ (.inl rfl) hi (by rw [hm]; simp only [Main.work]; omega)
        · intro j; show ((p.put i _).rs j).thread = _; rw [put_rs]; split
          · next e => rw [e]
          · rfl
        · intro j; show ((p.put i _).rs j).stopped = _; rw [put_rs]; split
          · next e => rw [e]
          · rfl
      · cases hs
        exact ending_main h (fun _ => rfl) (fun _ => rfl) (.inl rfl) trivial (by rw [hm]; simp only [Main.work]; omega)
    | joining i =>
      rw [hm] at hr
      simp only [step, hm] at hs
      split at hs
      · cases hs
      · cases hs
        exact ending_main h (fun _ => rfl) (fun _ => rfl) (.inl rfl) hr
          (by rw [hm]; simp only [Main.work]; simp only [Main.InRange] at hr; omega)
      · cases hs
    | core i =>
      rw [hm] at hr
      simp only [step, hm] at hs
      cases hs
      refine ending_main h ?_ ?_ (.inl rfl) trivial (by rw [hm]; simp only [Main.work]; simp only [Main.InRange] at hr; omega)
      · intro j; show ((p.put i _).rs j).thread = _; rw [put_rs]; split
        · next e => rw [e]
        · rfl
      · intro j; show ((p.put i _).rs j).stopped = _; rw [put_rs]; split
        · next e => rw [e]
        · rfl
    | done => simp only [step, hm] at hs; cases hs
  | check i =>
    simp only [step] at hs
    split at hs
    · next ht =>
      split at hs
      · cases hs
      · cases hs
        have hi : i < n := by
          apply Decidable.byContradiction; intro hn
          have := h.none i (by omega); rw [ht] at this; cases this
        refine ending_move h (by simp [ht]) ?_
        rw [ht, if_pos (h.stopped i hi)]; decide
    · cases hs
  | wake i k =>
    simp only [step] at hs
    split at hs
    · next ht =>
      split at hs
      · cases hs
      · next hk =>
        split at hs
        · cases hs
        · cases hs
          refine ending_move h (by simp [ht]) ?_
          have : maxEvents = 10 := rfl
          rw [ht]; simp only [TSt.work]; omega
    · cases hs
  | next i e =>
    simp only [step] at hs
    split at hs
    · next k ht =>
      have hi : i < n := by
        apply Decidable.byContradiction; intro hn
        have := h.none i (by omega); rw [ht] at this; cases this
      split at hs
      · split at hs
        · cases hs
        · rw [if_pos (h.stopped i hi)] at hs
          cases hs
          refine ending_move h (by simp [ht]) ?_
          rw [ht]; simp only [TSt.work]; omega
      · split at hs
        · cases hs
          refine ending_move h (by simp [ht]) ?_
          rw [ht]; simp only [TSt.work]; omega
        · cases hs
    · cases hs
  | again i to =>
    simp only [step] at hs
    split at hs
    · next k m ht =>
      split at hs
      · cases hs
        refine ending_move h (by simp [ht]) ?_
        rw [ht]; simp only [TSt.work]; omega
      · cases hs
    · cases hs
  | finish i to =>
    simp only [step] at hs
    split at hs
    · next k ht =>
      split at hs
      · cases hs
        refine ending_move h (by simp [ht]) ?_
        rw [ht]; simp only [TSt.work]; omega
      · cases hs
    · cases hs
  | throws i =>
    simp only [step] at hs
    split at hs
    · next k m ht =>
      split at hs
      · cases hs
        refine ending_move h (by simp [ht]) ?_
        rw [ht]; simp only [TSt.work]; omega
      · cases hs
    · cases hs
  | loop i =>
    simp only [step] at hs
    split at hs
    · next ht =>
      cases hs
      refine ending_move h (by simp [ht]) ?_
      rw [ht]; decide
    · cases hs

theorem ending_run {n k : Nat} {ok : Proc → Act → Prop} {p q : Proc} (h : Ending n p) (hr : Run n ok p k q) :
    Ending n q ∧ k + q.work n ≤ p.work n := by
  induction hr with
  | nil => exact ⟨h, by omega⟩
  | snoc _ _ hs ih =>
    obtain ⟨h1, h2⟩ := ending_step ih.1 hs
    exact ⟨h1, by omega⟩

/-! ## The theorems -/

/-- C71: in every orderly execution no step of any thread uses a destroyed object or joins a thread that does not exist, and
until `main` has returned some thread can go on.  What is missing is in the theorems named `violated`: the program does nothing
to make its executions orderly. -/
theorem C71_orderly_partial {n k : Nat} {p : Proc} (hr : Run n Quiet init k p) :
    (∀ a r, Quiet p a → step n p a = some r → ∃ q, r = .ok q) ∧
    (p.main ≠ .done → ∃ a q, Quiet p a ∧ step n p a = some (.ok q)) ∧
    (p.main = .done → ∀ i, i < n → (p.rs i).thread = .exited) := by
  have h := inv_run (inv_init n) hr
  refine ⟨?_, inv_alive h, h.ended⟩
  intro a r hq hs
  obtain ⟨q, e, _⟩ := inv_step h hq hs
  exact ⟨q, e⟩

/-- C71: after `ReactorManager::stop` every execution is finite, whatever events there are: with `main` in its last sleep it has
at most `3n + 3` steps of the main thread and, for each reactor, 23 or, if its thread is inside a batch, what is left of it. -/
theorem C71_ends {n k l : Nat} {p q : Proc} {ok : Proc → Act → Prop} (hr : Run n Quiet init k p) (hm : p.main = .lingering)
    (hl : Run n ok p l q) : l ≤ 3 * n + 3 + total (fun i => (p.rs i).thread.work) n := by
  have h := inv_run (inv_init n) hr
  have he : Ending n p := by
    refine ⟨?_, h.none, .inl hm, h.range⟩
    intro i hi
    refine h.stopped i ?_
    rw [hm]; exact hi
  have := (ending_run he hl).2
  simp only [Proc.work, hm, Main.work] at this
  omega

/-- The outcome of a list of steps. -/
def exec (n : Nat) (p : Proc) : List Act → Option (Exec Proc)
  | [] => some (.ok p)
  | a :: as => match step n p a with
    | some (.ok q) => exec n q as
    | r => r

/-- The four reactors start, and the thread of the third gets into `epoll_wait`. -/
def begun : List Act := [.start .ok, .start .ok, .start .ok, .start .ok, .main, .check 2]

/-- `main` stops the reactors, waits 100 ms and destroys the components. -/
def ended : List Act := [.main, .main, .main, .main, .main, .main, .main, .main]

/-- An orderly execution to the end. -/
example : ∃ q, exec 4 init (begun ++ ended ++ [.wake 2 1, .next 2 (.messages 5), .loop 2, .check 0, .check 1, .check 2, .check 3,
    .main, .main, .main, .main, .main, .main, .main, .main, .main, .main, .main, .main, .main]) = some (.ok q) ∧ q.main = .done :=
  ⟨_, rfl, rfl⟩

/-- C71 fails: `epoll_wait` returns after up to a second, but `main` waits 100 ms.  If data arrives on a link of a thread that was
waiting when the reactors were stopped, its handler is called on a destroyed component. -/
theorem C71_late_event_violated : exec 4 init (begun ++ ended ++ [.wake 2 1, .next 2 .fd]) = some .ub := rfl

/-- C71 fails: a handler that takes longer than the 100 ms (the controller has one that sleeps two seconds) goes on with
destroyed components; a message to a destroyed reactor is pushed into a destroyed mailbox. -/
theorem C71_long_handler_violated (to : List Nat) :
    exec 4 init (begun ++ [.wake 2 1, .next 2 (.messages 0)] ++ ended ++ [.finish 2 to]) = some .ub := rfl

/-- The flags of all reactors are unset and no thread has ended; `main` has not got past joining the first thread. -/
structure Unstopped (p : Proc) : Prop where
  flags : ∀ i, (p.rs i).stopped = false
  threads : ∀ i, (p.rs i).thread ≠ .exited
  main : (∃ i, p.main = .starting i) ∨ p.main = .running ∨ p.main = .destroying ∨ p.main = .pools 0 ∨ p.main = .joining 0

theorem unstopped_move {p : Proc} (h : Unstopped p) (i : Nat) {t : TSt} (ht : t ≠ .exited) : Unstopped (p.move i t) := by
  refine ⟨?_, ?_, h.main⟩
  · intro j; rw [move_stopped]; exact h.flags j
  · intro j; rw [move_thread]; split
    · exact ht
    · exact h.threads j

theorem unstopped_step {n : Nat} {p q : Proc} (hn : 0 < n) (h : Unstopped p) {a : Act} (hr : p.main = .running → a ≠ .main)
    (hs : step n p a = some (.ok q)) : Unstopped q := by
  have hmain := h.main
  cases a with
  | start r =>
    simp only [step] at hs
    split at hs
    · next i hm =>
      split at hs
      · have h1 := unstopped_move h i (t := .top) (by simp)
        split at hs
        · cases hs; exact ⟨h1.flags, h1.threads, .inl ⟨_, rfl⟩⟩
        · cases hs; exact ⟨h.flags, h.threads, .inr (.inr (.inl rfl))⟩
        · cases hs; exact ⟨h1.flags, h1.threads, .inr (.inr (.inl rfl))⟩
      · cases hs
    · cases hs
  | raise =>
    simp only [step] at hs
    split at hs
    · cases hs; exact ⟨h.flags, h.threads, .inr (.inr (.inl rfl))⟩
    · cases hs
  | main =>
    rcases hmain with ⟨i, hm⟩ | hm | hm | hm | hm
    · simp only [step, hm] at hs
      split at hs
      · cases hs
      · cases hs; exact ⟨h.flags, h.threads, .inr (.inl rfl)⟩
    · exact absurd rfl (hr hm)
    · simp only [step, hm] at hs
      cases hs; exact ⟨h.flags, h.threads, .inr (.inr (.inr (.inl rfl)))⟩
    · simp only [step, hm, if_pos hn] at hs
      cases hs
      refine ⟨?_, ?_, .inr (.inr (.inr (.inr rfl)))⟩
      · intro j; show ((p.put 0 _).rs j).stopped = _; rw [put_rs]; split
        · exact h.flags 0
        · exact h.flags j
      · intro j; show ((p.put 0 _).rs j).thread ≠ _; rw [put_rs]; split
        · exact h.threads 0
        · exact h.threads j
    · simp only [step, hm] at hs
      split at hs
      · cases hs
      · next ht => exact absurd ht (h.threads 0)
      · cases hs
  | check i =>
    simp only [step] at hs
    split at hs
    · split at hs
      · cases hs
      · rw [h.flags i] at hs
        cases hs
        exact unstopped_move h i (by simp)
    · cases hs
  | wake i k =>
    simp only [step] at hs
    split at hs
    · split at hs
      · cases hs
      · split at hs
        · cases hs
        · cases hs; exact unstopped_move h i (by simp)
    · cases hs
  | next i e =>
    simp only [step] at hs
    split at hs
    · split at hs
      · split at hs
        · cases hs
        · split at hs
          · cases hs; exact unstopped_move h i (by simp)
          · split at hs
            · cases hs; exact unstopped_move h i (by simp)
            · cases hs
      · split at hs
        · cases hs; exact unstopped_move h i (by simp)
        · cases hs
    · cases hs
  | again i to =>
    simp only [step] at hs
    split at hs
    · split at hs
      · cases hs; exact unstopped_move h i (by simp)
      · cases hs
    · cases hs
  | finish i to =>
    simp only [step] at hs
    split at hs
    · split at hs
      · cases hs; exact unstopped_move h i (by simp)
      · cases hs
    · cases hs
  | throws i =>
    simp only [step] at hs
    split at hs
    · split at hs
      · cases hs; exact unstopped_move h i (by simp)
      · cases hs
    · cases hs
  | loop i =>
    simp only [step] at hs
    split at hs
    · cases hs; exact unstopped_move h i (by simp)
    · cases hs

/-- Before the reactors are stopped. -/
theorem unstopped_run {n k : Nat} {p : Proc} (hn : 0 < n) (hr : Run n (fun _ _ => True) init k p) (hm : (∃ i, p.main = .starting i) ∨ p.main = .running) :
    Unstopped p := by
  induction hr with
  | nil => exact ⟨fun _ => rfl, fun _ => by simp [init], .inl ⟨0, rfl⟩⟩
  | @snoc k q a r hr _ hs ih =>
    have hq : ((∃ i, q.main = .starting i) ∨ q.main = .running) ∧ (q.main = .running → a ≠ .main) := by
      cases a with
      | start r0 =>
        simp only [step] at hs
        split at hs
        · next i hm' => exact ⟨.inl ⟨i, hm'⟩, by simp⟩
        · cases hs
      | raise =>
        simp only [step] at hs
        split at hs
        · next hm' => exact ⟨.inr hm', by simp⟩
        · cases hs
      | main =>
        cases hm' : q.main with
        | starting i => exact ⟨.inl ⟨i, rfl⟩, by simp⟩
        | running => simp only [step, hm'] at hs; cases hs; simp at hm
        | stopping i =>
          simp only [step, hm'] at hs
          split at hs <;> cases hs <;> simp at hm
        | lingering => simp only [step, hm'] at hs; cases hs; simp at hm
        | destroying => simp only [step, hm'] at hs; cases hs; simp at hm
        | pools i =>
          simp only [step, hm'] at hs
          split at hs <;> cases hs <;> simp at hm
        | joining i =>
          simp only [step, hm'] at hs
          split at hs
          · cases hs
          · cases hs; simp at hm
          · cases hs
        | core i => simp only [step, hm'] at hs; cases hs; simp at hm
        | done => simp only [step, hm'] at hs; cases hs
      | check i =>
        have : r.main = q.main := by
          simp only [step] at hs
          split at hs
          · split at hs
            · cases hs
            · cases hs; rfl
          · cases hs
        rw [this] at hm; exact ⟨hm, by simp⟩
      | wake i k =>
        have : r.main = q.main := by
          simp only [step] at hs
          repeat' split at hs
          all_goals first | (cases hs; rfl) | cases hs
        rw [this] at hm; exact ⟨hm, by simp⟩
      | next i e =>
        have : r.main = q.main := by
          simp only [step] at hs
          repeat' split at hs
          all_goals first | (cases hs; rfl) | cases hs
        rw [this] at hm; exact ⟨hm, by simp⟩
      | again i to =>
        have : r.main = q.main := by
          simp only [step] at hs
          repeat' split at hs
          all_goals first | (cases hs; rfl) | cases hs
        rw [this] at hm; exact ⟨hm, by simp⟩
      | finish i to =>
        have : r.main = q.main := by
          simp only [step] at hs
          repeat' split at hs
          all_goals first | (cases hs; rfl) | cases hs
        rw [this] at hm; exact ⟨hm, by simp⟩
      | throws i =>
        have : r.main = q.main := by
          simp only [step] at hs
          repeat' split at hs
          all_goals first | (cases hs; rfl) | cases hs
        rw [this] at hm; exact ⟨hm, by simp⟩
      | loop i =>
        have : r.main = q.main := by
          simp only [step] at hs
          repeat' split at hs
          all_goals first | (cases hs; rfl) | cases hs
        rw [this] at hm; exact ⟨hm, by simp⟩
    exact unstopped_step hn (ih hq.1) hq.2 hs

/-- C71 fails: if a thread can not be created or pinned, or sending the first or last message throws, the program never ends:
the reactors are destroyed without being stopped, so the first join waits for ever, unless before that a thread uses a destroyed
component or the thread to be joined does not exist. -/
theorem C71_exception_violated {n k l : Nat} {p q r : Proc} (hn : 0 < n) (hr : Run n (fun _ _ => True) init k p) (a : Act)
    (ha : a = .start .refused ∨ a = .start .unpinned ∨ a = .raise) (hs : step n p a = some (.ok q))
    (hl : Run n (fun _ _ => True) q l r) : r.main ≠ .done := by
  have hm : (∃ i, p.main = .starting i) ∨ p.main = .running := by
    rcases ha with rfl | rfl | rfl
    · simp only [step] at hs
      split at hs
      · next i hm => exact .inl ⟨i, hm⟩
      · cases hs
    · simp only [step] at hs
      split at hs
      · next i hm => exact .inl ⟨i, hm⟩
      · cases hs
    · simp only [step] at hs
      split at hs
      · next hm => exact .inr hm
      · cases hs
  have hu := unstopped_run hn hr hm
  have hq : Unstopped q := unstopped_step hn hu (by rcases ha with rfl | rfl | rfl <;> simp) hs
  have hqm : q.main = .destroying := by
    rcases ha with rfl | rfl | rfl
    all_goals
      simp only [step] at hs
      repeat' split at hs
      all_goals first | (cases hs; rfl) | cases hs | (rename_i e _; cases e) | (rename_i e; cases e)
  have key : Unstopped r ∧ (r.main = .destroying ∨ r.main = .pools 0 ∨ r.main = .joining 0) := by
    induction hl with
    | nil => exact ⟨hq, .inl hqm⟩
    | @snoc k q' a r hl _ hs' ih =>
      have hrun : q'.main ≠ .running := by rcases ih.2 with e | e | e <;> simp [e]
      have h1 := unstopped_step hn ih.1 (fun e => absurd e hrun) hs'
      refine ⟨h1, ?_⟩
      rcases h1.main with ⟨i, e⟩ | e | e | e | e
      · exfalso
        cases a <;> simp only [step] at hs' <;> repeat' split at hs'
        all_goals first
          | (cases hs'; done)
          | (cases hs'; rcases ih.2 with e' | e' | e' <;> simp_all)
      · exfalso
        cases a <;> simp only [step] at hs' <;> repeat' split at hs'
        all_goals first
          | (cases hs'; done)
          | (cases hs'; rcases ih.2 with e' | e' | e' <;> simp_all)
      · exact .inl e
      · exact .inr (.inl e)
      · exact .inr (.inr e)
  rcases key.2 with e | e | e <;> simp [e]

/-- A thread that could not be created is joined. -/
example : exec 4 init [.start .refused, .main, .main, .main] = some .ub := rfl

/-- With the second thread refused, the first is never joined. -/
example : ∃ q, exec 4 init [.start .ok, .start .refused, .check 0, .main, .main] = some (.ok q) ∧ q.main = .joining 0 ∧
    (q.rs 0).thread = .waiting ∧ step 4 q .main = none := ⟨_, rfl, rfl, rfl, rfl⟩

theorem start_single {m : UInt64} {b : Nat} (hb : b < 1024) (h0 : m ≠ 0) (h : ∀ j, j < 1024 → cpuset m j = decide (j = b)) (allowed : Cpus) :
    startThread m true allowed = .ok ↔ allowed b = true := by
  have e1 : (List.range 1024).all (fun j => !(cpuset m j && allowed j)) = !allowed b := by
    rw [Bool.eq_iff_iff, List.all_eq_true]
    constructor
    · intro ha
      have := ha b (List.mem_range.2 hb)
      rw [h b hb] at this
      simpa using this
    · intro ha j hj
      rw [h j (List.mem_range.1 hj)]
      by_cases e : j = b
      · subst e; simpa using ha
      · simp [e]
  have e2 : (List.range 1024).all (fun j => (cpuset m j && allowed j) == cpuset m j) = allowed b := by
    rw [Bool.eq_iff_iff, List.all_eq_true]
    constructor
    · intro ha
      have := ha b (List.mem_range.2 hb)
      rw [h b hb] at this
      simpa using this
    · intro ha j hj
      rw [h j (List.mem_range.1 hj)]
      by_cases e : j = b
      · subst e; simpa using ha
      · simp [e]
  unfold startThread
  rw [if_neg (by simp), if_neg h0, e1, e2]
  cases allowed b <;> simp

/-- C71: with threads created, the program starts exactly if it may run on the CPUs 2, 4, 6 and 7. -/
theorem C71_cpus (allowed : Cpus) : (∀ m ∈ masks, startThread m true allowed = .ok) ↔
    allowed 2 = true ∧ allowed 4 = true ∧ allowed 6 = true ∧ allowed 7 = true := by
  have h2 := start_single (m := 0b00000100) (b := 2) (by omega) (by decide) (by decide +kernel) allowed
  have h4 := start_single (m := 0b00010000) (b := 4) (by omega) (by decide) (by decide +kernel) allowed
  have h6 := start_single (m := 0b01000000) (b := 6) (by omega) (by decide) (by decide +kernel) allowed
  have h7 := start_single (m := 0b10000000) (b := 7) (by omega) (by decide) (by decide +kernel) allowed
  simp only [masks, List.mem_cons, List.not_mem_nil, or_false, forall_eq_or_imp, forall_eq]
  rw [h2, h4, h6, h7]

/-- On a machine with four CPUs the second thread can not be pinned. -/
example : masks.map (fun m => startThread m true fun j => decide (j < 4)) = [.ok, .unpinned, .unpinned, .unpinned] := by decide +kernel

/-- A mask is not an alternative: of CPUs 0 and 5, one is not enough. -/
example : startThread 0b100001 true (fun j => decide (j < 4)) = .unpinned ∧ startThread 0 true (fun _ => false) = .ok := by decide +kernel

end Uscada.Lifecycle
