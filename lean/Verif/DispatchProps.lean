import Verif.Dispatch
/-!
# C62: descriptors and pooled objects, C63: events reach whom they are meant for
-/

namespace Uscada.Dispatch

open Uscada

/-! ## Specification of C62 -/

/-- What the log allows: an object opens a descriptor only when it has closed what it opened before; it closes only what it has
opened itself, and once. -/
def Tidy (pre : List Note) : Note → Prop
  | .opened r f => (∀ g, .opened r g ∈ pre → .closed r g ∈ pre) ∧ ∀ q, .opened q f ∉ pre
  | .closed r f => .opened r f ∈ pre ∧ ∀ q, .closed q f ∉ pre
  | _ => True

/-- No `epoll_ctl` fails for an accepted connection. -/
def Op.sound : Op → Bool
  | .accept _ _ ok => ok
  | _ => true

def sound (bs : List (List (Pick × Reaction))) : Prop := ∀ b ∈ bs, ∀ x ∈ b, ∀ o ∈ x.2.ops, o.sound = true

/-! ## The invariant -/

structure Inv (s : Sys) (log : List Note) : Prop where
  held : ∀ r n, (s.slot r).owner ≠ none → (s.slot r).num = some n → ∃ f, s.tab n = some f ∧ f.ref = r ∧ f.watched = true ∧
    .opened r f.id ∈ log ∧ ∀ q, .closed q f.id ∉ log
  watched : ∀ n f, s.tab n = some f → f.watched = true → (s.slot f.ref).num = some n ∧ (s.slot f.ref).owner ≠ none
  nodup : ∀ k, (s.free k).Nodup
  free : ∀ k i, i ∈ s.free k → (s.slot ⟨k, i⟩).num = none ∧ (s.slot ⟨k, i⟩).owner = none
  ids : ∀ n f, s.tab n = some f → f.id < s.files
  inj : ∀ n m f g, s.tab n = some f → s.tab m = some g → f.id = g.id → n = m
  fresh : ∀ r f, (.opened r f ∈ log → f < s.files) ∧ (.closed r f ∈ log → f < s.files)
  open' : ∀ r f, .opened r f ∈ log → .closed r f ∈ log ∨
    ∃ n g, (s.slot r).num = some n ∧ s.tab n = some g ∧ g.id = f ∧ (s.slot r).owner ≠ none
  uses : ∀ r u, (s.slot r).owner = some u → u < s.uses
  owners : ∀ r q u, (s.slot r).owner = some u → (s.slot q).owner = some u → r = q
  timers : ∀ i, (s.slot ⟨.timer, i⟩).owner ≠ none → (s.slot ⟨.timer, i⟩).num ≠ none
  tidy : AllOk Tidy log

theorem inv_init : Inv init [] := by
  constructor <;> simp [init, List.nodup_range, AllOk]

/-- Notes that say nothing about descriptors being opened or closed. -/
def Note.plain : Note → Bool
  | .opened .. => false
  | .closed .. => false
  | _ => true

theorem Inv.plain {s : Sys} {log : List Note} (h : Inv s log) {a : Note} (ha : a.plain = true) : Inv s (log ++ [a]) := by
  have h1 : ∀ r f, a ≠ .opened r f := by intro r f e; subst e; cases ha
  have h2 : ∀ r f, a ≠ .closed r f := by intro r f e; subst e; cases ha
  have h3 : Tidy log a := by cases a <;> first | trivial | cases ha
  obtain ⟨a1, a2, a3, a4, a5, a6, a7, a8, a9, a10, a11, a12⟩ := h
  refine ⟨?_, a2, a3, a4, a5, a6, ?_, ?_, a9, a10, a11, a12.snoc h3⟩
  · intro r n x y
    obtain ⟨f, f1, f2, f3, f4, f5⟩ := a1 r n x y
    exact ⟨f, f1, f2, f3, by simp [f4], by intro q hq; simp [f5] at hq; exact h2 _ _ hq.symm⟩
  · intro r f
    simp only [List.mem_append, List.mem_singleton, (h1 r f).symm, (h2 r f).symm, or_false]
    exact a7 r f
  · intro r f
    simp only [List.mem_append, List.mem_singleton, (h1 r f).symm, (h2 r f).symm, or_false]
    exact a8 r f

/-- Changing what the kernel knows about a descriptor. -/
theorem Inv.touch {s : Sys} {log : List Note} (h : Inv s log) {n : Nat} {f g : File} (hf : s.tab n = some f)
    (hid : g.id = f.id) (href : g.ref = f.ref) (hw : g.watched = f.watched) : Inv (s.setTab n (some g)) log := by
  obtain ⟨a1, a2, a3, a4, a5, a6, a7, a8, a9, a10, a11, a12⟩ := h
  refine ⟨?_, ?_, a3, a4, ?_, ?_, a7, ?_, a9, a10, a11, a12⟩ <;> simp only [Sys.setTab]
  · grind
  · grind
  · grind
  · grind
  · grind

/-- A new descriptor for an object that has none. -/
theorem Inv.opened {s : Sys} {log : List Note} (h : Inv s log) {n : Nat} {r : Ref} {u : Option Nat} {uses : Nat} (hn : s.tab n = none)
    (hr : (s.slot r).num = none) (hu : u ≠ none) (hfree : r.idx ∉ s.free r.kind)
    (hl : s.uses ≤ uses) (hlt : ∀ v, u = some v → v < uses)
    (hnew : ∀ q v, u = some v → (s.slot q).owner = some v → q = r) :
    Inv { (s.openAs n r true).setSlot r ⟨some n, u⟩ with uses := uses } (log ++ [.opened r s.files]) := by
  obtain ⟨a1, a2, a3, a4, a5, a6, a7, a8, a9, a10, a11, a12⟩ := h
  have nr : ∀ f, Note.opened r f ∈ log → Note.closed r f ∈ log := by
    intro f hf
    rcases a8 r f hf with h | ⟨m, g, h1, _⟩
    · exact h
    · rw [hr] at h1; cases h1
  have nf : ∀ q, Note.opened q s.files ∉ log := fun q hq => by have := (a7 q s.files).1 hq; omega
  have nc : ∀ q, Note.closed q s.files ∉ log := fun q hq => by have := (a7 q s.files).2 hq; omega
  refine ⟨?_, ?_, a3, ?_, ?_, ?_, ?_, ?_, ?_, ?_, ?_, a12.snoc ⟨nr, nf⟩⟩ <;> simp only [Sys.openAs, Sys.setSlot]
  · intro q m h1 h2
    by_cases hq : q = r
    · subst hq
      simp only [if_true] at h1 h2
      injection h2 with h2
      subst h2
      exact ⟨⟨s.files, q, true, false, false⟩, by simp, rfl, rfl, by simp, by simpa using nc⟩
    · simp only [if_neg hq] at h1 h2
      obtain ⟨f, f1, f2, f3, f4, f5⟩ := a1 q m h1 h2
      have : m ≠ n := by rintro rfl; rw [hn] at f1; cases f1
      exact ⟨f, by simp [this, f1], f2, f3, by simp [f4], by simpa using f5⟩
  · intro m f h1 h2
    by_cases hm : m = n
    · simp only [hm, if_true] at h1
      injection h1 with h1
      subst h1
      simp [hm, hu]
    · simp only [if_neg hm] at h1
      have := a2 m f h1 h2
      have hne : f.ref ≠ r := by intro e; rw [e, hr] at this; cases this.1
      simpa [hne] using this
  · intro k i hi
    have hne : (⟨k, i⟩ : Ref) ≠ r := by rintro rfl; exact hfree hi
    simpa [hne] using a4 k i hi
  · grind
  · grind
  · intro q f
    simp only [List.mem_append, List.mem_singleton, Note.opened.injEq, reduceCtorEq, or_false]
    have := a7 q f
    constructor
    · rintro (h | h)
      · have := this.1 h; omega
      · omega
    · intro h; have := this.2 h; omega
  · intro q f hf
    simp only [List.mem_append, List.mem_singleton, Note.opened.injEq, reduceCtorEq, or_false] at hf ⊢
    rcases hf with hf | ⟨rfl, rfl⟩
    · rcases a8 q f hf with h | ⟨m, g, h1, h2, h3, h4⟩
      · exact .inl h
      · have hq : q ≠ r := by rintro rfl; rw [hr] at h1; cases h1
        have hm : m ≠ n := by rintro rfl; rw [hn] at h2; cases h2
        exact .inr ⟨m, g, by simp [hq, h1], by simp [hm, h2], h3, by simpa [hq] using h4⟩
    · exact .inr ⟨n, ⟨s.files, q, true, false, false⟩, by simp, by simp, rfl, by simp [hu]⟩
  · intro q v hv
    by_cases hq : q = r
    · simp only [hq, if_true] at hv
      exact hlt v hv
    · simp only [if_neg hq] at hv
      have := a9 q v hv
      omega
  · intro q q' v h1 h2
    by_cases hq : q = r <;> by_cases hq' : q' = r
    · rw [hq, hq']
    · simp only [hq, if_true, if_neg hq'] at h1 h2
      exact absurd (hnew q' v h1 h2) hq'
    · simp only [hq', if_true, if_neg hq] at h1 h2
      exact absurd (hnew q v h2 h1) hq
    · simp only [if_neg hq, if_neg hq'] at h1 h2
      exact a10 q q' v h1 h2
  · intro i h1
    by_cases hq : (⟨.timer, i⟩ : Ref) = r
    · simp [hq]
    · simp only [if_neg hq] at h1 ⊢
      exact a11 i h1

/-- The object gives up its descriptor, and perhaps goes back to its pool. -/
theorem Inv.drop {s : Sys} {log : List Note} (h : Inv s log) {r : Ref} (hr : (s.slot r).owner ≠ none) {u : Option Nat}
    {fr : Kind → List Nat} (hu : (u = (s.slot r).owner ∧ fr = s.free ∧ r.kind = .link) ∨
      (u = none ∧ fr = fun k => if k = r.kind then s.free r.kind ++ [r.idx] else s.free k)) :
    Inv { s with slot := fun x => if x = r then ⟨none, u⟩ else s.slot x,
                 tab := fun x => if (s.slot r).num = some x then none else s.tab x, free := fr } (log ++ (s.close r).2) := by
  have hu' : u = (s.slot r).owner ∨ u = none := by rcases hu with h | h <;> simp [h.1]
  have hnew : ∀ q v, u = some v → (s.slot q).owner = some v → q = r := by
    intro q v h1 h2
    rcases hu' with e | e
    · exact h.owners q r v h2 (e ▸ h1)
    · rw [e] at h1; cases h1
  have hfree : ∀ k i, i ∈ fr k → (⟨k, i⟩ : Ref) = r ∧ u = none ∨ (⟨k, i⟩ : Ref) ≠ r ∧ i ∈ s.free k := by
    intro k i hi
    by_cases hq : (⟨k, i⟩ : Ref) = r
    · rcases hu with ⟨_, e, _⟩ | ⟨e, _⟩
      · rw [e] at hi
        have := (h.free k i hi).2
        rw [hq] at this
        exact absurd this hr
      · exact .inl ⟨hq, e⟩
    · refine .inr ⟨hq, ?_⟩
      rcases hu with ⟨_, e, _⟩ | ⟨_, e⟩
      · rw [e] at hi; exact hi
      · rw [e] at hi
        simp only at hi
        split at hi
        · rename_i ek
          subst ek
          rcases List.mem_append.1 hi with hi | hi
          · exact hi
          · rw [List.mem_singleton.1 hi] at hq
            exact absurd rfl hq
        · exact hi
  have hnd : ∀ k, (fr k).Nodup := by
    intro k
    rcases hu with ⟨_, e, _⟩ | ⟨_, e⟩
    · rw [e]; exact h.nodup k
    · rw [e]
      simp only
      split
      · rename_i ek
        subst ek
        rw [List.nodup_append]
        refine ⟨h.nodup _, by simp, ?_⟩
        intro a ha b hb hab
        rw [List.mem_singleton.1 hb] at hab
        rw [hab] at ha
        exact hr (h.free r.kind r.idx ha).2
      · exact h.nodup k
  have htm : ∀ i, (⟨.timer, i⟩ : Ref) = r → u = none := by
    intro i e
    rcases hu with ⟨_, _, e'⟩ | ⟨e', _⟩
    · rw [← e] at e'; cases e'
    · exact e'
  obtain ⟨a1, a2, a3, a4, a5, a6, a7, a8, a9, a10, a11, a12⟩ := h
  have slots : ∀ (x : Ref) (v : Nat), (if x = r then (⟨none, u⟩ : Slot) else s.slot x).owner = some v → (s.slot x).owner = some v := by
    intro x v hv
    by_cases hx : x = r
    · subst hx
      simp only [if_true] at hv
      rcases hu' with e | e
      · rw [← e]; exact hv
      · rw [e] at hv; cases hv
    · simpa [hx] using hv
  unfold Sys.close
  cases hn : (s.slot r).num with
  | none =>
    have et : (fun x => if (none : Option Nat) = some x then none else s.tab x) = s.tab := by simp
    simp only [List.append_nil, et]
    refine ⟨?_, ?_, hnd, ?_, a5, a6, a7, ?_, ?_, ?_, ?_, a12⟩
    · intro q m h1 h2
      by_cases hq : q = r
      · simp [hq] at h2
      · simp only [if_neg hq] at h1 h2
        exact a1 q m h1 h2
    · intro m g h1 h2
      have := a2 m g h1 h2
      have hne : g.ref ≠ r := by intro e; rw [e, hn] at this; cases this.1
      simpa [hne] using this
    · intro k i hi
      rcases hfree k i hi with ⟨e1, e2⟩ | ⟨e1, e2⟩
      · simp [e1, e2]
      · simpa [e1] using a4 k i e2
    · intro q g hg
      rcases a8 q g hg with h | ⟨m, g', h1, h2, h3, h4⟩
      · exact .inl h
      · have hq : q ≠ r := by rintro rfl; rw [hn] at h1; cases h1
        exact .inr ⟨m, g', by simp [hq, h1], h2, h3, by simpa [hq] using h4⟩
    · exact fun q v hv => a9 q v (slots q v hv)
    · exact fun q q' v h1 h2 => a10 q q' v (slots q v h1) (slots q' v h2)
    · intro i h1
      by_cases hq : (⟨.timer, i⟩ : Ref) = r
      · simp [hq, htm i hq] at h1
      · simp only [if_neg hq] at h1 ⊢
        exact a11 i h1
  | some n =>
    obtain ⟨f, f1, f2, f3, f4, f5⟩ := a1 r n hr hn
    have et : (fun x => if some n = some x then none else s.tab x) = fun x => if x = n then none else s.tab x := by
      funext x
      by_cases hx : x = n
      · simp [hx]
      · simp [hx, Ne.symm hx]
    simp only [f1, et]
    refine ⟨?_, ?_, hnd, ?_, ?_, ?_, ?_, ?_, ?_, ?_, ?_, a12.snoc ⟨f4, f5⟩⟩ <;> simp only
    · intro q m h1 h2
      by_cases hq : q = r
      · simp [hq] at h2
      · simp only [if_neg hq] at h1 h2
        obtain ⟨g, g1, g2, g3, g4, g5⟩ := a1 q m h1 h2
        have hm : m ≠ n := by
          rintro rfl
          rw [f1] at g1
          injection g1 with g1
          subst g1
          exact hq (g2.symm.trans f2)
        refine ⟨g, by simp [hm, g1], g2, g3, by simp [g4], ?_⟩
        intro q' hq'
        simp only [List.mem_append, List.mem_singleton, Note.closed.injEq] at hq'
        rcases hq' with hq' | ⟨_, hq'⟩
        · exact g5 _ hq'
        · exact hm (a6 _ _ _ _ g1 f1 hq')
    · intro m g h1 h2
      by_cases hm : m = n
      · simp [hm] at h1
      · simp only [if_neg hm] at h1
        have := a2 m g h1 h2
        have hne : g.ref ≠ r := by
          intro e
          rw [e, hn] at this
          injection this.1 with e'
          exact hm e'.symm
        simpa [hne] using this
    · intro k i hi
      rcases hfree k i hi with ⟨e1, e2⟩ | ⟨e1, e2⟩
      · simp [e1, e2]
      · simpa [e1] using a4 k i e2
    · grind
    · grind
    · intro q g
      simp only [List.mem_append, List.mem_singleton, reduceCtorEq, or_false, Note.closed.injEq]
      refine ⟨(a7 q g).1, ?_⟩
      rintro (h | ⟨_, rfl⟩)
      · exact (a7 q g).2 h
      · exact a5 n f f1
    · intro q g hg
      simp only [List.mem_append, List.mem_singleton, reduceCtorEq, or_false, Note.closed.injEq] at hg ⊢
      rcases a8 q g hg with h | ⟨m, g', h1, h2, h3, h4⟩
      · exact .inl (.inl h)
      · by_cases hq : q = r
        · subst hq
          rw [hn] at h1
          injection h1 with h1
          subst h1
          rw [f1] at h2
          injection h2 with h2
          subst h2
          exact .inl (.inr ⟨rfl, h3.symm⟩)
        · have hm : m ≠ n := by
            rintro rfl
            obtain ⟨g2, x1, x2, _⟩ := a1 q m h4 h1
            rw [f1] at x1
            injection x1 with x1
            subst x1
            exact hq (x2.symm.trans f2)
          exact .inr ⟨m, g', by simp [hq, h1], by simp [hm, h2], h3, by simpa [hq] using h4⟩
    · exact fun q v hv => a9 q v (slots q v hv)
    · exact fun q q' v h1 h2 => a10 q q' v (slots q v h1) (slots q' v h2)
    · intro i h1
      by_cases hq : (⟨.timer, i⟩ : Ref) = r
      · simp [hq, htm i hq] at h1
      · simp only [if_neg hq] at h1 ⊢
        exact a11 i h1

/-- `close` leaves the owner. -/
theorem close_eq (s : Sys) (r : Ref) : (s.close r).1 = { s with slot := fun x => if x = r then ⟨none, (s.slot r).owner⟩ else s.slot x, tab := fun x => if (s.slot r).num = some x then none else s.tab x } := by
  unfold Sys.close
  cases hn : (s.slot r).num with
  | none =>
    have e1 : (fun x => if x = r then (⟨none, (s.slot r).owner⟩ : Slot) else s.slot x) = s.slot := by
      funext x
      by_cases hx : x = r
      · subst hx; simp [← hn]
      · simp [hx]
    simp [e1]
  | some n =>
    have et : (fun x => if some n = some x then none else s.tab x) = fun x => if x = n then none else s.tab x := by
      funext x
      by_cases hx : x = n
      · simp [hx]
      · simp [hx, Ne.symm hx]
    simp only [et]
    rfl

theorem Inv.close {s : Sys} {log : List Note} (h : Inv s log) {r : Ref} (hr : (s.slot r).owner ≠ none) (hk : r.kind = .link) :
    Inv (s.close r).1 (log ++ (s.close r).2) := by
  rw [close_eq]
  exact h.drop hr (.inl ⟨rfl, rfl, hk⟩)

theorem release_eq (s : Sys) (r : Ref) :
    ((s.close r).1.setSlot r { (s.close r).1.slot r with owner := none }).setFree r.kind ((s.close r).1.free r.kind ++ [r.idx]) =
    { s with slot := fun x => if x = r then ⟨none, none⟩ else s.slot x,
             tab := fun x => if (s.slot r).num = some x then none else s.tab x,
             free := fun k => if k = r.kind then s.free r.kind ++ [r.idx] else s.free k } := by
  rw [close_eq]
  simp only [Sys.setSlot, Sys.setFree]
  congr 1
  funext x
  by_cases hx : x = r <;> simp [hx]

theorem inv_op {s s' : Sys} {log : List Note} {o : Op} {ns : List Note} (h : Inv s log) (ho : o.sound = true)
    (hs : op s o = some (s', ns)) : Inv s' (log ++ ns) := by
  have same : some (s, ([] : List Note)) = some (s', ns) → Inv s' (log ++ ns) := by
    intro e
    injection e with e
    injection e with e1 e2
    subst e1; subst e2
    simpa using h
  cases o with
  | link =>
    simp only [op] at hs
    split at hs
    · exact same hs
    · rename_i i rest hf
      injection hs with e
      injection e with e1 e2
      subst e1; subst e2
      obtain ⟨b1, b2⟩ := h.free .link i (by simp [hf])
      have hnd := h.nodup .link
      rw [hf, List.nodup_cons] at hnd
      refine Inv.plain ?_ rfl
      obtain ⟨a1, a2, a3, a4, a5, a6, a7, a8, a9, a10, a11, a12⟩ := h
      refine ⟨?_, ?_, ?_, ?_, a5, a6, a7, ?_, ?_, ?_, ?_, a12⟩ <;> simp only [Sys.setSlot, Sys.setFree]
      · intro q m h1 h2
        by_cases hq : q = ⟨.link, i⟩
        · simp [hq, b1] at h2
        · simp only [if_neg hq] at h1 h2
          exact a1 q m h1 h2
      · intro m g h1 h2
        have := a2 m g h1 h2
        have hne : g.ref ≠ ⟨.link, i⟩ := by intro e; rw [e, b1] at this; cases this.1
        simpa [hne] using this
      · intro k
        split
        · exact hnd.2
        · exact a3 k
      · intro k j hj
        have hne : (⟨k, j⟩ : Ref) ≠ ⟨.link, i⟩ := by
          rintro ⟨⟩
          simp only [if_true] at hj
          exact hnd.1 hj
        have : j ∈ s.free k := by
          split at hj
          · rename_i e; subst e; rw [hf]; simp [hj]
          · exact hj
        simpa [hne] using a4 k j this
      · intro q g hg
        rcases a8 q g hg with h | ⟨m, g', h1, h2, h3, h4⟩
        · exact .inl h
        · have hq : q ≠ ⟨.link, i⟩ := by rintro rfl; rw [b1] at h1; cases h1
          exact .inr ⟨m, g', by simp [hq, h1], h2, h3, by simpa [hq] using h4⟩
      · intro q v hv
        by_cases hq : q = ⟨.link, i⟩
        · simp only [hq, if_true] at hv
          injection hv with hv
          omega
        · simp only [if_neg hq] at hv
          have := a9 q v hv
          omega
      · intro q q' v h1 h2
        by_cases hq : q = ⟨.link, i⟩ <;> by_cases hq' : q' = ⟨.link, i⟩
        · rw [hq, hq']
        · simp only [hq, if_true, if_neg hq'] at h1 h2
          injection h1 with h1
          have := a9 q' v h2
          omega
        · simp only [hq', if_true, if_neg hq] at h1 h2
          injection h2 with h2
          have := a9 q v h1
          omega
        · simp only [if_neg hq, if_neg hq'] at h1 h2
          exact a10 q q' v h1 h2
      · intro j h1
        have hne : (⟨.timer, j⟩ : Ref) ≠ ⟨.link, i⟩ := by simp
        simp only [if_neg hne] at h1 ⊢
        exact a11 j h1
  | timer n ok =>
    simp only [op] at hs
    split at hs
    case isFalse => cases hs
    rename_i hn
    split at hs
    · exact same hs
    rename_i i rest hf
    obtain ⟨b1, b2⟩ := h.free .timer i (by simp [hf])
    have hnd := h.nodup .timer
    rw [hf, List.nodup_cons] at hnd
    have hsl : (s.setFree .timer rest).slot ⟨.timer, i⟩ = s.slot ⟨.timer, i⟩ := rfl
    rw [hsl, if_neg (by simp [b1])] at hs
    have h0 : Inv (s.setFree .timer rest) log := by
      obtain ⟨a1, a2, a3, a4, a5, a6, a7, a8, a9, a10, a11, a12⟩ := h
      refine ⟨a1, a2, ?_, ?_, a5, a6, a7, a8, a9, a10, a11, a12⟩ <;> simp only [Sys.setFree]
      · intro k
        split
        · exact hnd.2
        · exact a3 k
      · intro k j hj
        refine a4 k j ?_
        split at hj
        · rename_i e; subst e; rw [hf]; simp [hj]
        · exact hj
    split at hs
    · injection hs with e
      injection e with e1 e2
      subst e1; subst e2
      have e : ∀ (a b : Note), log ++ [a, b] = (log ++ [a]) ++ [b] := by simp
      rw [e]
      refine Inv.plain ?_ rfl
      refine Inv.opened h0 hn b1 (by simp) ?_ (by simp [Sys.setFree]) ?_ ?_
      · simpa [Sys.setFree] using hnd.1
      · intro v hv
        injection hv with hv
        have : (s.setFree .timer rest).uses = s.uses := rfl
        omega
      · intro q v hv hq
        injection hv with hv
        have := h0.uses q v hq
        omega
    · injection hs with e
      injection e with e1 e2
      subst e1; subst e2
      obtain ⟨a1, a2, a3, a4, a5, a6, a7, a8, a9, a10, a11, a12⟩ := h0
      simp only [List.append_nil]
      refine ⟨?_, ?_, a3, ?_, a5, a6, a7, ?_, ?_, ?_, ?_, a12⟩ <;> simp only [Sys.setSlot]
      · intro q m h1 h2
        by_cases hq : q = ⟨.timer, i⟩
        · simp [hq, b2] at h1
        · simp only [if_neg hq] at h1 h2
          exact a1 q m h1 h2
      · intro m g h1 h2
        have := a2 m g h1 h2
        have hne : g.ref ≠ ⟨.timer, i⟩ := by intro e; rw [e, hsl, b1] at this; cases this.1
        simpa [hne] using this
      · intro k j hj
        have hne : (⟨k, j⟩ : Ref) ≠ ⟨.timer, i⟩ := by
          rintro ⟨⟩
          simp only [Sys.setFree, if_true] at hj
          exact hnd.1 hj
        simpa [hne] using a4 k j hj
      · intro q g hg
        rcases a8 q g hg with h | ⟨m, g', h1, h2, h3, h4⟩
        · exact .inl h
        · have hq : q ≠ ⟨.timer, i⟩ := by rintro rfl; rw [hsl, b1] at h1; cases h1
          exact .inr ⟨m, g', by simp [hq, h1], h2, h3, by simpa [hq] using h4⟩
      · intro q v hv
        by_cases hq : q = ⟨.timer, i⟩
        · simp [hq, b2] at hv
        · simp only [if_neg hq] at hv
          exact a9 q v hv
      · intro q q' v h1 h2
        by_cases hq : q = ⟨.timer, i⟩
        · simp [hq, b2] at h1
        · by_cases hq' : q' = ⟨.timer, i⟩
          · simp [hq', b2] at h2
          · simp only [if_neg hq, if_neg hq'] at h1 h2
            exact a10 q q' v h1 h2
      · intro j h1
        by_cases hq : (⟨.timer, j⟩ : Ref) = ⟨.timer, i⟩
        · simp [hq]
        · simp only [if_neg hq] at h1 ⊢
          exact a11 j h1
  | connect i n =>
    simp only [op] at hs
    split at hs
    case isFalse => cases hs
    rename_i hc
    split at hs
    · exact same hs
    rename_i hnum
    injection hs with e
    injection e with e1 e2
    subst e1; subst e2
    have hnum' : (s.slot ⟨.link, i⟩).num = none := by simpa using hnum
    refine Inv.opened (uses := s.uses) h hc.2 hnum' hc.1 ?_ (Nat.le_refl _) ?_ ?_
    · intro hi
      exact hc.1 (h.free .link i hi).2
    · exact fun v hv => h.uses _ v hv
    · exact fun q v hv hq => h.owners _ _ v hq hv
  | accept i n ok =>
    have hok : ok = true := ho
    subst hok
    simp only [op] at hs
    split at hs
    case isFalse => cases hs
    rename_i hc
    split at hs
    · injection hs with e
      injection e with e1 e2
      subst e1; subst e2
      simp only [List.append_nil]
      have hn := hc.2
      obtain ⟨a1, a2, a3, a4, a5, a6, a7, a8, a9, a10, a11, a12⟩ := h
      refine ⟨?_, ?_, a3, a4, ?_, ?_, ?_, ?_, a9, a10, a11, a12⟩ <;> simp only [Sys.openAs]
      · intro q m h1 h2
        obtain ⟨f, f1, f2, f3, f4, f5⟩ := a1 q m h1 h2
        have hm : m ≠ n := by rintro rfl; rw [hn] at f1; cases f1
        exact ⟨f, by simp [hm, f1], f2, f3, f4, f5⟩
      · intro m g h1 h2
        by_cases hm : m = n
        · simp only [hm, if_true] at h1
          injection h1 with h1
          subst h1
          cases h2
        · simp only [if_neg hm] at h1
          exact a2 m g h1 h2
      · grind
      · grind
      · intro q f
        have := a7 q f
        exact ⟨fun h => by have := this.1 h; omega, fun h => by have := this.2 h; omega⟩
      · intro q g hg
        rcases a8 q g hg with h | ⟨m, g', h1, h2, h3, h4⟩
        · exact .inl h
        · have hm : m ≠ n := by rintro rfl; rw [hn] at h2; cases h2
          exact .inr ⟨m, g', h1, by simp [hm, h2], h3, h4⟩
    · rename_i hnum
      rw [if_pos trivial] at hs
      injection hs with e
      injection e with e1 e2
      subst e1; subst e2
      have hnum' : (s.slot ⟨.link, i⟩).num = none := by simpa using hnum
      refine Inv.opened (uses := s.uses) h hc.2 hnum' hc.1 ?_ (Nat.le_refl _) ?_ ?_
      · intro hi
        exact hc.1 (h.free .link i hi).2
      · exact fun v hv => h.uses _ v hv
      · exact fun q v hv hq => h.owners _ _ v hq hv
  | close i =>
    simp only [op] at hs
    split at hs
    case isFalse => cases hs
    rename_i hc
    injection hs with e
    have := h.close (r := ⟨.link, i⟩) hc rfl
    rw [e] at this
    exact this
  | release r =>
    simp only [op] at hs
    split at hs
    · cases hs
    rename_i u hc
    injection hs with e
    injection e with e1 e2
    rw [release_eq] at e1
    subst e1; subst e2
    rw [← List.append_assoc]
    exact (h.drop (by simp [hc]) (.inr ⟨rfl, rfl⟩)).plain rfl
  | arm i =>
    simp only [op] at hs
    split at hs
    case isFalse => cases hs
    split at hs
    · exact same hs
    split at hs
    · exact same hs
    rename_i f hf
    injection hs with e
    injection e with e1 e2
    subst e1; subst e2
    have := h.touch (g := { f with due := false }) hf rfl rfl rfl
    exact this.plain (a := .set f.id) rfl
  | expire n =>
    simp only [op] at hs
    split at hs
    case h_2 => cases hs
    rename_i f hf
    split at hs
    case isFalse => cases hs
    injection hs with e
    injection e with e1 e2
    subst e1; subst e2
    have := h.touch (g := { f with due := true, edge := true }) hf rfl rfl rfl
    exact this.plain (a := .expired f.id) rfl
  | edge n =>
    simp only [op] at hs
    split at hs
    case h_2 => cases hs
    rename_i f hf
    split at hs
    case isFalse => cases hs
    injection hs with e
    injection e with e1 e2
    subst e1; subst e2
    have := h.touch (g := { f with edge := true }) hf rfl rfl rfl
    simpa using this

/-- Whatever the operations keep, a list of them keeps. -/
theorem ops_keep {P : Sys → List Note → Prop} {s s' : Sys} {log : List Note} {os : List Op} {ns : List Note}
    (step : ∀ s s' log o ns, o ∈ os → P s log → op s o = some (s', ns) → P s' (log ++ ns)) (h : P s log)
    (hs : ops s os = some (s', ns)) : P s' (log ++ ns) := by
  induction os generalizing s log ns with
  | nil =>
    injection hs with e
    injection e with e1 e2
    subst e1; subst e2
    simpa using h
  | cons o os ih =>
    simp only [ops, Option.bind_eq_bind, Option.bind_eq_some_iff] at hs
    obtain ⟨⟨s1, x⟩, h1, ⟨s2, y⟩, h2, h3⟩ := hs
    injection h3 with e
    injection e with e1 e2
    subst e1; subst e2
    rw [← List.append_assoc]
    exact ih (fun s s' log o ns ho => step s s' log o ns (by simp [ho])) (step _ _ _ _ _ (by simp) h h1) h2

/-- Whatever operations and deliveries keep, the loop keeps. -/
theorem dispatch_keep {P : Sys → List Note → Prop} {s s' : Sys} {log : List Note} {es : List (Option Entry × Reaction)} {ns : List Note}
    (step : ∀ s s' log o ns, (∃ x ∈ es, o ∈ x.2.ops) → P s log → op s o = some (s', ns) → P s' (log ++ ns))
    (event : ∀ s s' log e ns, P s log → onEvent s e = some (s', ns) → P s' (log ++ ns))
    (lost : ∀ s log f, P s log → P s (log ++ [.lost f])) (h : P s log)
    (hs : dispatch s es = some (s', ns)) : P s' (log ++ ns) := by
  have losts : ∀ (l : List (Option Entry × Reaction)) s log, P s log → P s (log ++ lostOf l) := by
    intro l
    induction l with
    | nil => intro s log h; simpa [lostOf] using h
    | cons x l ih =>
      intro s log h
      obtain ⟨e, r⟩ := x
      cases e with
      | none => exact ih s log h
      | some e =>
        have := ih s _ (lost s log e.file h)
        simpa [lostOf, List.append_assoc] using this
  induction es generalizing s log ns with
  | nil =>
    injection hs with e
    injection e with e1 e2
    subst e1; subst e2
    simpa using h
  | cons a es ih =>
    obtain ⟨x, r⟩ := a
    have rest : ∀ s log s1 o1 m, P s log → ops s r.ops = some (s1, o1) → (if r.throws then pure (s1, o1 ++ lostOf es)
        else do
          let (s, o2) ← dispatch s1 es
          pure (s, o1 ++ o2) : Option (Sys × List Note)) = some (s', m) → P s' (log ++ m) := by
      intro s log s1 o1 m h h1 hs
      have k1 := ops_keep (fun s s' log o ns ho => step s s' log o ns ⟨_, List.mem_cons_self, ho⟩) h h1
      split at hs
      · injection hs with e
        injection e with e1 e2
        subst e1; subst e2
        rw [← List.append_assoc]
        exact losts es _ _ k1
      · simp only [Option.bind_eq_bind, Option.bind_eq_some_iff] at hs
        obtain ⟨⟨s2, o2⟩, h2, hs⟩ := hs
        injection hs with e
        injection e with e1 e2
        subst e1; subst e2
        rw [← List.append_assoc]
        exact ih (fun s s' log o ns ⟨x, hx, ho⟩ => step s s' log o ns ⟨x, by simp [hx], ho⟩) k1 h2
    cases x with
    | none =>
      simp only [dispatch, Option.bind_eq_bind] at hs
      rw [Option.bind_eq_some_iff] at hs
      obtain ⟨⟨s1, o1⟩, h1, hs⟩ := hs
      exact rest s log s1 o1 ns h h1 hs
    | some e =>
      simp only [dispatch] at hs
      split at hs
      · injection hs with e'
        injection e' with e1 e2
        subst e1; subst e2
        exact losts _ _ _ h
      · rename_i s0 o he
        have k := event _ _ _ _ _ h he
        rw [Option.bind_eq_bind, Option.bind_eq_some_iff] at hs
        obtain ⟨⟨s1, o1⟩, h1, hs⟩ := hs
        simp only at hs
        by_cases ht : r.throws = true
        · rw [if_pos ht] at hs
          injection hs with e'
          injection e' with e1 e2
          subst e1; subst e2
          rw [← List.append_assoc]
          exact rest _ _ s1 o1 (o1 ++ lostOf es) k h1 (by rw [if_pos ht]; rfl)
        · rw [if_neg ht] at hs
          rw [Option.bind_eq_some_iff] at hs
          obtain ⟨⟨s2, o2⟩, h2, hs⟩ := hs
          injection hs with e'
          injection e' with e1 e2
          subst e1; subst e2
          rw [← List.append_assoc]
          exact rest _ _ s1 o1 (o1 ++ o2) k h1 (by rw [if_neg ht, h2]; rfl)

/-- Whatever the report of events keeps. -/
theorem collect_keep {P : Sys → Prop} {s s' : Sys} {ps : List Pick} {es : List (Option Entry)}
    (touch : ∀ s n f, P s → s.tab n = some f → P (s.setTab n (some { f with edge := false }))) (h : P s)
    (hs : collect s ps = some (s', es)) : P s' := by
  induction ps generalizing s es with
  | nil =>
    injection hs with e
    injection e with e1 e2
    subst e1
    exact h
  | cons p ps ih =>
    cases p with
    | other =>
      simp only [collect, Option.bind_eq_bind, Option.bind_eq_some_iff] at hs
      obtain ⟨⟨s1, x⟩, h1, hs⟩ := hs
      injection hs with e
      injection e with e1 e2
      subst e1
      exact ih h h1
    | fd n mask =>
      simp only [collect] at hs
      split at hs
      case h_2 => cases hs
      rename_i f hf
      split at hs
      case isFalse => cases hs
      simp only [Option.bind_eq_bind, Option.bind_eq_some_iff] at hs
      obtain ⟨⟨s1, x⟩, h1, hs⟩ := hs
      injection hs with e
      injection e with e1 e2
      subst e1
      exact ih (touch s n f h hf) h1

theorem turn_keep {P : Sys → List Note → Prop} {s s' : Sys} {log : List Note} {b : List (Pick × Reaction)} {ns : List Note}
    (touch : ∀ s log n f, P s log → s.tab n = some f → P (s.setTab n (some { f with edge := false })) log)
    (step : ∀ s s' log o ns, (∃ x ∈ b, o ∈ x.2.ops) → P s log → op s o = some (s', ns) → P s' (log ++ ns))
    (event : ∀ s s' log e ns, P s log → onEvent s e = some (s', ns) → P s' (log ++ ns))
    (lost : ∀ s log f, P s log → P s (log ++ [.lost f])) (h : P s log)
    (hs : turn s b = some (s', ns)) : P s' (log ++ ns) := by
  unfold turn at hs
  split at hs
  case isFalse => cases hs
  simp only [Option.bind_eq_bind, Option.bind_eq_some_iff] at hs
  obtain ⟨⟨s1, es⟩, h1, hs⟩ := hs
  have k := collect_keep (P := fun s => P s log) (fun s n f => touch s log n f) h h1
  refine dispatch_keep ?_ event lost k hs
  intro s s' log o ns ⟨x, hx, ho⟩
  refine step s s' log o ns ?_
  have := (List.of_mem_zip (a := x.1) (b := x.2) hx).2
  obtain ⟨y, hy, e⟩ := List.mem_map.1 this
  exact ⟨y, hy, by rw [e]; exact ho⟩

theorem run_keep {P : Sys → List Note → Prop} {s s' : Sys} {log log' : List Note} {bs : List (List (Pick × Reaction))}
    (touch : ∀ s log n f, P s log → s.tab n = some f → P (s.setTab n (some { f with edge := false })) log)
    (step : ∀ s s' log o ns, (∃ b ∈ bs, ∃ x ∈ b, o ∈ x.2.ops) → P s log → op s o = some (s', ns) → P s' (log ++ ns))
    (event : ∀ s s' log e ns, P s log → onEvent s e = some (s', ns) → P s' (log ++ ns))
    (lost : ∀ s log f, P s log → P s (log ++ [.lost f])) (h : P s log)
    (hs : run s log bs = some (s', log')) : P s' log' := by
  induction bs generalizing s log with
  | nil =>
    injection hs with e
    injection e with e1 e2
    subst e1; subst e2
    exact h
  | cons b bs ih =>
    simp only [run, Option.bind_eq_bind, Option.bind_eq_some_iff] at hs
    obtain ⟨⟨s1, o⟩, h1, hs⟩ := hs
    have k := turn_keep touch (fun s s' log o ns ho => step s s' log o ns ⟨b, by simp, ho⟩) event lost h h1
    exact ih (fun s s' log o ns ⟨b, hb, ho⟩ => step s s' log o ns ⟨b, by simp [hb], ho⟩) k hs

theorem inv_event {s s' : Sys} {log : List Note} {e : Entry} {ns : List Note} (h : Inv s log) (hs : onEvent s e = some (s', ns)) :
    Inv s' (log ++ ns) := by
  unfold onEvent at hs
  split at hs
  · rename_i hk
    injection hs with hs
    unfold onLink at hs
    split at hs
    · injection hs with e1 e2
      subst e1; subst e2
      exact h.plain rfl
    · rename_i u hu
      split at hs
      · injection hs with e1 e2
        subst e1; subst e2
        exact h.plain rfl
      split at hs
      · injection hs with e1 e2
        subst e1; subst e2
        exact h.plain rfl
      · injection hs with e1 e2
        subst e1; subst e2
        have := h.close (r := e.ref) (by simp [hu]) hk
        rw [← List.append_assoc]
        exact this.plain rfl
  · unfold onTimer at hs
    split at hs
    · cases hs
    split at hs
    · cases hs
    rename_i f hf
    split at hs
    · injection hs with hs
      injection hs with e1 e2
      subst e1; subst e2
      simpa using h
    have k := h.touch (g := { f with due := false }) hf rfl rfl rfl
    split at hs <;>
    · injection hs with hs
      injection hs with e1 e2
      subst e1; subst e2
      exact k.plain rfl

theorem inv_run {s : Sys} {log : List Note} {bs : List (List (Pick × Reaction))} (hb : sound bs)
    (h : run init [] bs = some (s, log)) : Inv s log := by
  refine run_keep ?_ ?_ ?_ ?_ inv_init h
  · intro s log n f h hf
    exact h.touch hf rfl rfl rfl
  · intro s s' log o ns ⟨b, hb', x, hx, ho⟩ h hs
    exact inv_op h (hb b hb' x hx o ho) hs
  · exact fun s s' log e ns h hs => inv_event h hs
  · exact fun s log f h => h.plain rfl

/-! ## C62 -/

/-- Every object opens one descriptor at a time and closes exactly what it has opened, once. -/
theorem C62_tidy_partial (bs : List (List (Pick × Reaction))) (s : Sys) (log : List Note) (hb : sound bs)
    (h : run init [] bs = some (s, log)) : AllOk Tidy log :=
  (inv_run hb h).tidy

/-- The number an object in use holds stands for the descriptor that it opened itself and that nobody has closed. -/
theorem C62_held_partial (bs : List (List (Pick × Reaction))) (s : Sys) (log : List Note) (hb : sound bs)
    (h : run init [] bs = some (s, log)) (r : Ref) (n : Nat) (ho : (s.slot r).owner ≠ none) (hn : (s.slot r).num = some n) :
    ∃ f, s.tab n = some f ∧ .opened r f.id ∈ log ∧ ∀ q, .closed q f.id ∉ log := by
  obtain ⟨f, h1, _, _, h2, h3⟩ := (inv_run hb h).held r n ho hn
  exact ⟨f, h1, h2, h3⟩

/-- A link is opened, reports an error, is opened again and is released. -/
def tidyRun : List (List (Pick × Reaction)) :=
  [[(.other, ⟨[.link, .connect 0 7, .edge 7], false⟩)], [(.fd 7 16, ⟨[.connect 0 7, .timer 8 true, .edge 7], false⟩)],
    [(.fd 7 1, ⟨[.release ⟨.link, 0⟩], false⟩)]]

example : sound tidyRun ∧ (run init [] tidyRun).map (·.2) = some
    [.taken ⟨.link, 0⟩ 0, .opened ⟨.link, 0⟩ 0, .closed ⟨.link, 0⟩ 0, .call ⟨.link, 0⟩ .error 0 (some 0) 0 (some 0),
      .opened ⟨.link, 0⟩ 1, .opened ⟨.timer, 0⟩ 2, .taken ⟨.timer, 0⟩ 1,
      .call ⟨.link, 0⟩ .data 0 (some 0) 1 (some 1), .closed ⟨.link, 0⟩ 1, .freed ⟨.link, 0⟩ 0] := by
  constructor
  · unfold sound; decide +kernel
  · decide +kernel

/-- A connection is accepted, but `epoll_ctl` fails: the link keeps the number of the closed descriptor.  The number is given to
another link, and releasing the first link closes the descriptor of the second. -/
theorem C62_accept_violated : ∃ bs log, (run init [] bs).map (·.2) = some log ∧
    Note.opened ⟨.link, 1⟩ 0 ∈ log ∧ Note.closed ⟨.link, 0⟩ 0 ∈ log ∧ ¬ AllOk Tidy log := by
  refine ⟨[[(.other, ⟨[.link, .accept 0 7 false, .link, .connect 1 7, .release ⟨.link, 0⟩], false⟩)]],
    [.taken ⟨.link, 0⟩ 0, .taken ⟨.link, 1⟩ 1, .opened ⟨.link, 1⟩ 0, .closed ⟨.link, 0⟩ 0, .freed ⟨.link, 0⟩ 0],
    by decide +kernel, by decide, by decide, ?_⟩
  intro h
  have := (h [.taken ⟨.link, 0⟩ 0, .taken ⟨.link, 1⟩ 1, .opened ⟨.link, 1⟩ 0] (.closed ⟨.link, 0⟩ 0) _ rfl).1
  revert this
  decide

/-- Timer.cpp:91-109: the deleter of an owning pointer stops the timer first; `timerfd_settime` fails if the number stands for
nothing, and an exception that leaves the deleter ends the process.  `op` goes on as if it had been caught. -/
def Ends (s : Sys) (i : Nat) : Prop := (s.slot ⟨.timer, i⟩).owner ≠ none ∧ ∀ n, (s.slot ⟨.timer, i⟩).num = some n → s.tab n = none

/-- As long as `epoll_ctl` does not fail for an accepted connection, releasing a timer does not end the process, whatever else a
handler does first. -/
theorem C62_timer_release_partial (bs : List (List (Pick × Reaction))) (s : Sys) (log : List Note) (hb : sound bs)
    (h : run init [] bs = some (s, log)) (os : List Op) (ho : ∀ o ∈ os, o.sound = true) (s' : Sys) (ns : List Note)
    (hs : ops s os = some (s', ns)) (i : Nat) : ¬ Ends s' i := by
  have hi := inv_run hb h
  clear h
  induction os generalizing s log ns with
  | nil =>
    simp only [ops, Option.some.injEq, Prod.mk.injEq] at hs
    obtain ⟨rfl, rfl⟩ := hs
    intro ⟨h1, h2⟩
    cases hn : (s.slot ⟨.timer, i⟩).num with
    | none => exact hi.timers i h1 hn
    | some n =>
      obtain ⟨f, hf, _⟩ := hi.held _ n h1 hn
      rw [h2 n hn] at hf
      cases hf
  | cons o os ih =>
    simp only [ops] at hs
    cases h1 : op s o with
    | none => rw [h1] at hs; cases hs
    | some x =>
      obtain ⟨t, a⟩ := x
      rw [h1] at hs
      cases h2 : ops t os with
      | none => simp [h2] at hs
      | some y =>
        obtain ⟨t', b⟩ := y
        simp only [h2, Option.bind_eq_bind, Option.bind_some, Option.pure_def, Option.some.injEq, Prod.mk.injEq] at hs
        obtain ⟨rfl, rfl⟩ := hs
        exact ih t (log ++ a) (fun o h => ho o (List.mem_cons_of_mem _ h)) b h2 (inv_op hi (ho o (List.mem_cons_self ..)) h1)

example : ∃ s ns, ops init [.timer 8 true, .link, .accept 0 7 true, .release ⟨.link, 0⟩] = some (s, ns) ∧
    (s.slot ⟨.timer, 0⟩).owner ≠ none := by
  refine ⟨_, _, rfl, by decide⟩

/-- The number that a link keeps is given to a timer; closing the link closes the timer, and the next release of the timer ends the
process. -/
theorem C62_timer_release_violated : ∃ os x, ops init os = some x ∧ (∀ o ∈ os, o ≠ .release ⟨.timer, 0⟩) ∧ Ends x.1 0 := by
  refine ⟨[.link, .accept 0 7 false, .timer 7 true, .close 0], _, rfl, by decide, by decide, ?_⟩
  intro n hn
  have : n = 7 := by
    revert hn
    simp [Sys.setSlot, Sys.setFree, Sys.setTab, Sys.openAs, init]
    exact fun h => h.symm
  subst this
  rfl

/-! ## Pools -/

/-- Nothing that can be created fails to be registered. -/
def Op.fine : Op → Bool
  | .accept _ _ ok => ok
  | .timer _ ok => ok
  | _ => true

def fine (bs : List (List (Pick × Reaction))) : Prop := ∀ b ∈ bs, ∀ x ∈ b, ∀ o ∈ x.2.ops, o.fine = true

theorem fine_sound {o : Op} (h : o.fine = true) : o.sound = true := by cases o <;> first | rfl | exact h

/-- An object nobody owns is in its pool. -/
def Full (s : Sys) : Prop := ∀ k i, i < 32 → (s.slot ⟨k, i⟩).owner = none → i ∈ s.free k

theorem Full.same {s s' : Sys} (h : Full s) (ho : ∀ r, (s'.slot r).owner = (s.slot r).owner) (hf : s'.free = s.free) : Full s' := by
  intro k i hi hn
  rw [hf]
  exact h k i hi (by rw [← ho]; exact hn)

theorem full_op {s s' : Sys} {log : List Note} {o : Op} {ns : List Note} (h : Inv s log) (hp : Full s) (ho : o.fine = true)
    (hs : op s o = some (s', ns)) : Full s' := by
  have same : some (s, ([] : List Note)) = some (s', ns) → Full s' := by
    intro e
    injection e with e
    injection e with e1 e2
    subst e1
    exact hp
  have take : ∀ (k : Kind) (i : Nat) (rest : List Nat) (v : Slot) (u : Nat), s.free k = i :: rest → v.owner ≠ none →
      ∀ t : Sys, (∀ r, (t.slot r).owner = if r = ⟨k, i⟩ then v.owner else (s.slot r).owner) →
      (∀ x, t.free x = if x = k then rest else s.free x) → Full t := by
    intro k i rest v u hf hv t h1 h2 k' j hj hn
    rw [h1] at hn
    rw [h2]
    by_cases hq : (⟨k', j⟩ : Ref) = ⟨k, i⟩
    · rw [if_pos hq] at hn
      exact absurd hn hv
    · rw [if_neg hq] at hn
      have := hp k' j hj hn
      split
      · rename_i e
        subst e
        rw [hf] at this
        rcases List.mem_cons.1 this with e | e
        · subst e; exact absurd rfl hq
        · exact e
      · exact this
  cases o with
  | link =>
    simp only [op] at hs
    split at hs
    · exact same hs
    · rename_i i rest hf
      injection hs with e
      injection e with e1 e2
      subst e1
      refine take .link i rest ⟨none, some s.uses⟩ 0 hf (by simp) _ ?_ ?_
      · intro r
        simp only [Sys.setSlot, Sys.setFree]
        split <;> rfl
      · intro x; rfl
  | timer n ok =>
    have hok : ok = true := ho
    subst hok
    simp only [op] at hs
    split at hs
    case isFalse => cases hs
    split at hs
    · exact same hs
    rename_i i rest hf
    obtain ⟨b1, b2⟩ := h.free .timer i (by simp [hf])
    have hsl : (s.setFree .timer rest).slot ⟨.timer, i⟩ = s.slot ⟨.timer, i⟩ := rfl
    rw [hsl, if_neg (by simp [b1]), if_pos trivial] at hs
    injection hs with e
    injection e with e1 e2
    subst e1
    refine take .timer i rest ⟨none, some s.uses⟩ 0 hf (by simp) _ ?_ ?_
    · intro r
      simp only [Sys.setSlot, Sys.setFree, Sys.openAs]
      split <;> rfl
    · intro x; rfl
  | connect i n =>
    simp only [op] at hs
    split at hs
    case isFalse => cases hs
    split at hs
    · exact same hs
    injection hs with e
    injection e with e1 e2
    subst e1
    refine hp.same ?_ rfl
    intro r
    simp only [Sys.setSlot, Sys.openAs]
    split
    · rename_i e; rw [e]
    · rfl
  | accept i n ok =>
    have hok : ok = true := ho
    subst hok
    simp only [op] at hs
    split at hs
    case isFalse => cases hs
    split at hs
    · injection hs with e
      injection e with e1 e2
      subst e1
      exact hp.same (fun _ => rfl) rfl
    · rw [if_pos trivial] at hs
      injection hs with e
      injection e with e1 e2
      subst e1
      refine hp.same ?_ rfl
      intro r
      simp only [Sys.setSlot, Sys.openAs]
      split
      · rename_i e; rw [e]
      · rfl
  | close i =>
    simp only [op] at hs
    split at hs
    case isFalse => cases hs
    injection hs with e
    have e1 : (s.close ⟨.link, i⟩).1 = s' := by rw [e]
    rw [close_eq] at e1
    subst e1
    refine hp.same ?_ rfl
    intro r
    simp only
    split
    · rename_i e; rw [e]
    · rfl
  | release r =>
    simp only [op] at hs
    split at hs
    · cases hs
    injection hs with e
    injection e with e1 e2
    rw [release_eq] at e1
    subst e1
    intro k i hi hn
    simp only at hn ⊢
    by_cases hq : (⟨k, i⟩ : Ref) = r
    · subst hq
      simp
    · rw [if_neg hq] at hn
      have := hp k i hi hn
      split
      · rename_i e; subst e; simp [this]
      · exact this
  | arm i =>
    simp only [op] at hs
    split at hs
    case isFalse => cases hs
    split at hs
    · exact same hs
    split at hs
    · exact same hs
    injection hs with e
    injection e with e1 e2
    subst e1
    exact hp.same (fun _ => rfl) rfl
  | expire n =>
    simp only [op] at hs
    split at hs
    case h_2 => cases hs
    split at hs
    case isFalse => cases hs
    injection hs with e
    injection e with e1 e2
    subst e1
    exact hp.same (fun _ => rfl) rfl
  | edge n =>
    simp only [op] at hs
    split at hs
    case h_2 => cases hs
    split at hs
    case isFalse => cases hs
    injection hs with e
    injection e with e1 e2
    subst e1
    exact hp.same (fun _ => rfl) rfl

/-- An event changes no owner, no pool and no counter. -/
theorem event_same {s s' : Sys} {e : Entry} {ns : List Note} (hs : onEvent s e = some (s', ns)) :
    (∀ r, (s'.slot r).owner = (s.slot r).owner) ∧ s'.free = s.free ∧ s'.uses = s.uses := by
  unfold onEvent at hs
  split at hs
  · injection hs with hs
    unfold onLink at hs
    split at hs
    · injection hs with e1 e2; subst e1; exact ⟨fun _ => rfl, rfl, rfl⟩
    split at hs
    · injection hs with e1 e2; subst e1; exact ⟨fun _ => rfl, rfl, rfl⟩
    split at hs
    · injection hs with e1 e2; subst e1; exact ⟨fun _ => rfl, rfl, rfl⟩
    · injection hs with e1 e2
      rw [close_eq] at e1
      subst e1
      refine ⟨?_, rfl, rfl⟩
      intro r
      simp only
      split
      · rename_i e; rw [e]
      · rfl
  · unfold onTimer at hs
    split at hs
    · cases hs
    split at hs
    · cases hs
    split at hs
    · injection hs with hs
      injection hs with e1 e2; subst e1; exact ⟨fun _ => rfl, rfl, rfl⟩
    split at hs <;>
    · injection hs with hs
      injection hs with e1 e2; subst e1; exact ⟨fun _ => rfl, rfl, rfl⟩

theorem full_run {s : Sys} {log : List Note} {bs : List (List (Pick × Reaction))} (hb : fine bs)
    (h : run init [] bs = some (s, log)) : Inv s log ∧ Full s := by
  refine run_keep (P := fun s log => Inv s log ∧ Full s) ?_ ?_ ?_ ?_ ⟨inv_init, ?_⟩ h
  · intro s log n f ⟨h, hp⟩ hf
    exact ⟨h.touch hf rfl rfl rfl, hp.same (fun _ => rfl) rfl⟩
  · intro s s' log o ns ⟨b, hb', x, hx, ho⟩ ⟨h, hp⟩ hs
    have := hb b hb' x hx o ho
    exact ⟨inv_op h (fine_sound this) hs, full_op h hp this hs⟩
  · exact fun s s' log e ns ⟨h, hp⟩ hs => ⟨inv_event h hs, hp.same (event_same hs).1 (event_same hs).2.1⟩
  · exact fun s log f ⟨h, hp⟩ => ⟨h.plain rfl, hp⟩
  · intro k i hi _
    simpa [init] using hi

/-- As long as nothing fails to be registered, pools lose nothing: a link or a timer can be created unless all thirty-two are
owned. -/
theorem C62_pool_partial (bs : List (List (Pick × Reaction))) (s : Sys) (log : List Note) (hb : fine bs)
    (h : run init [] bs = some (s, log)) :
    (∀ s' ns, op s .link = some (s', ns) → (∃ i, .taken ⟨.link, i⟩ s.uses ∈ ns) ∨ ∀ i, i < 32 → (s.slot ⟨.link, i⟩).owner ≠ none) ∧
    (∀ n s' ns, op s (.timer n true) = some (s', ns) →
      (∃ i, .taken ⟨.timer, i⟩ s.uses ∈ ns) ∨ ∀ i, i < 32 → (s.slot ⟨.timer, i⟩).owner ≠ none) := by
  obtain ⟨hi, hp⟩ := full_run hb h
  constructor
  · intro s' ns hs
    simp only [op] at hs
    split at hs
    · rename_i hf
      exact .inr fun i hi hn => by have := hp .link i hi hn; simp [hf] at this
    · rename_i i rest hf
      injection hs with e
      injection e with e1 e2
      subst e2
      exact .inl ⟨i, by simp⟩
  · intro n s' ns hs
    simp only [op] at hs
    split at hs
    case isFalse => cases hs
    split at hs
    · rename_i hf
      exact .inr fun i hi hn => by have := hp .timer i hi hn; simp [hf] at this
    · rename_i i rest hf
      obtain ⟨b1, b2⟩ := hi.free .timer i (by simp [hf])
      have hsl : (s.setFree .timer rest).slot ⟨.timer, i⟩ = s.slot ⟨.timer, i⟩ := rfl
      rw [hsl, if_neg (by simp [b1]), if_pos trivial] at hs
      injection hs with e
      injection e with e1 e2
      subst e2
      exact .inl ⟨i, by simp [Sys.setFree]⟩

example : fine tidyRun ∧ ((run init [] tidyRun).map fun x => (x.1.free .link).length) = some 32 := by
  constructor
  · unfold fine; decide +kernel
  · decide +kernel

/-- Thirty-two timers whose registration fails empty the pool although nobody owns any: the thirty-third attempt gets nothing. -/
theorem C62_timer_leak_violated : ∃ bs, (∀ n, n ≤ 31 → (((run init [] bs).map fun x => (x.1.slot ⟨.timer, n⟩).owner) = some none)) ∧
    ((run init [] bs).bind fun x => (op x.1 (.timer 7 true)).map (·.2)) = some [] :=
  ⟨[[(.other, ⟨List.replicate 32 (.timer 7 false), false⟩)]], by decide +kernel, by decide +kernel⟩

end Uscada.Dispatch
