import Verif.DispatchProps
/-!
# C62, continued: who owns a pooled object and who is called; C63: time-outs
-/

namespace Uscada.Dispatch

open Uscada

/-! ## Specification -/

/-- An object has one owner at a time, only its owner gives it back, and only its owner is called. -/
def Served (pre : List Note) : Note → Prop
  | .taken r u => (∀ v, .taken r v ∈ pre → .freed r v ∈ pre) ∧ ∀ q, .taken q u ∉ pre
  | .freed r u => .taken r u ∈ pre ∧ ∀ q, .freed q u ∉ pre
  | .call r _ u _ _ _ => .taken r u ∈ pre ∧ ∀ q, .freed q u ∉ pre
  | _ => True

/-- Notes that say nothing about owners. -/
def Note.quiet : Note → Bool
  | .taken .. => false
  | .freed .. => false
  | .call .. => false
  | _ => true

/-! ## Invariant -/

structure Own (s : Sys) (log : List Note) : Prop where
  own : ∀ r u, (s.slot r).owner = some u → .taken r u ∈ log ∧ ∀ q, .freed q u ∉ log
  fresh : ∀ q u, (.taken q u ∈ log → u < s.uses) ∧ (.freed q u ∈ log → u < s.uses)
  uses : ∀ r u, (s.slot r).owner = some u → u < s.uses
  owners : ∀ r q u, (s.slot r).owner = some u → (s.slot q).owner = some u → r = q
  nodup : ∀ k, (s.free k).Nodup
  free : ∀ k i, i ∈ s.free k → (s.slot ⟨k, i⟩).owner = none
  back : ∀ r u, .taken r u ∈ log → .freed r u ∈ log ∨ (s.slot r).owner = some u
  ok : AllOk Served log

theorem own_init : Own init [] := by
  constructor <;> simp [init, List.nodup_range, AllOk]

theorem Own.same {s s' : Sys} {log : List Note} (h : Own s log) (ho : ∀ r, (s'.slot r).owner = (s.slot r).owner)
    (hf : ∀ k, (s'.free k).Sublist (s.free k)) (hu : s'.uses = s.uses) : Own s' log := by
  obtain ⟨a1, a2, a3, a4, a5, a6, a7, a8⟩ := h
  refine ⟨?_, ?_, ?_, ?_, ?_, ?_, ?_, a8⟩
  · intro r u; rw [ho]; exact a1 r u
  · intro q u; rw [hu]; exact a2 q u
  · intro r u; rw [ho, hu]; exact a3 r u
  · intro r q u; rw [ho, ho]; exact a4 r q u
  · intro k; exact (hf k).nodup (a5 k)
  · intro k i hi; rw [ho]; exact a6 k i ((hf k).subset hi)
  · intro r u; rw [ho]; exact a7 r u

theorem Own.note {s : Sys} {log : List Note} (h : Own s log) {a : Note} (ha : (∀ r u, a ≠ .taken r u) ∧ ∀ r u, a ≠ .freed r u)
    (hs : Served log a) : Own s (log ++ [a]) := by
  obtain ⟨a1, a2, a3, a4, a5, a6, a7, a8⟩ := h
  obtain ⟨h1, h2⟩ := ha
  refine ⟨?_, ?_, a3, a4, a5, a6, ?_, a8.snoc hs⟩
  · intro r u hu
    obtain ⟨x, y⟩ := a1 r u hu
    exact ⟨by simp [x], by intro q hq; simp [y] at hq; exact h2 _ _ hq.symm⟩
  · intro q u
    simp only [List.mem_append, List.mem_singleton, (h1 q u).symm, (h2 q u).symm, or_false]
    exact a2 q u
  · intro q u
    simp only [List.mem_append, List.mem_singleton, (h1 q u).symm, (h2 q u).symm, or_false]
    exact a7 q u

theorem Own.quiet {s : Sys} {log ns : List Note} (h : Own s log) (hq : ∀ a ∈ ns, a.quiet = true) : Own s (log ++ ns) := by
  induction ns generalizing log with
  | nil => simpa using h
  | cons a ns ih =>
    have ha := hq a (by simp)
    have : Own s (log ++ [a]) := by
      refine h.note ⟨?_, ?_⟩ ?_
      · rintro r u rfl; cases ha
      · rintro r u rfl; cases ha
      · cases a <;> first | trivial | cases ha
    have := ih this fun b hb => hq b (by simp [hb])
    simpa using this

theorem Own.take {s s' : Sys} {log : List Note} (h : Own s log) {k : Kind} {i : Nat} {rest : List Nat} (hf : s.free k = i :: rest)
    (ho : ∀ r, (s'.slot r).owner = if r = ⟨k, i⟩ then some s.uses else (s.slot r).owner)
    (hf' : ∀ x, s'.free x = if x = k then rest else s.free x) (hu : s'.uses = s.uses + 1) :
    Own s' (log ++ [.taken ⟨k, i⟩ s.uses]) := by
  obtain ⟨a1, a2, a3, a4, a5, a6, a7, a8⟩ := h
  have hnone := a6 k i (by simp [hf])
  have hnd := a5 k
  rw [hf, List.nodup_cons] at hnd
  refine ⟨?_, ?_, ?_, ?_, ?_, ?_, ?_, a8.snoc ⟨?_, ?_⟩⟩
  · intro r u h1
    rw [ho] at h1
    split at h1
    · rename_i e
      injection h1 with h1
      subst h1
      refine ⟨by simp [e], ?_⟩
      intro q hq
      simp only [List.mem_append, List.mem_singleton, reduceCtorEq, or_false] at hq
      have := (a2 q s.uses).2 hq
      omega
    · obtain ⟨x, y⟩ := a1 r u h1
      exact ⟨by simp [x], by simpa using y⟩
  · intro q u
    rw [hu]
    simp only [List.mem_append, List.mem_singleton, reduceCtorEq, or_false, Note.taken.injEq]
    constructor
    · rintro (h | ⟨_, rfl⟩)
      · have := (a2 q u).1 h; omega
      · omega
    · intro h; have := (a2 q u).2 h; omega
  · intro r u h1
    rw [ho] at h1
    rw [hu]
    split at h1
    · injection h1 with h1; omega
    · have := a3 r u h1; omega
  · intro r q u h1 h2
    rw [ho] at h1 h2
    split at h1 <;> split at h2
    · rename_i e1 e2; rw [e1, e2]
    · injection h1 with h1
      have := a3 q u h2
      omega
    · injection h2 with h2
      have := a3 r u h1
      omega
    · exact a4 r q u h1 h2
  · intro x
    rw [hf']
    split
    · exact hnd.2
    · exact a5 x
  · intro x j hj
    rw [hf'] at hj
    rw [ho]
    split at hj
    · rename_i e
      subst e
      have hne : (⟨x, j⟩ : Ref) ≠ ⟨x, i⟩ := by rintro ⟨⟩; exact hnd.1 hj
      rw [if_neg hne]
      exact a6 x j (by rw [hf]; simp [hj])
    · rename_i e
      have hne : (⟨x, j⟩ : Ref) ≠ ⟨k, i⟩ := by rintro ⟨⟩; exact e rfl
      rw [if_neg hne]
      exact a6 x j hj
  · intro r u h1
    simp only [List.mem_append, List.mem_singleton, reduceCtorEq, or_false, Note.taken.injEq] at h1 ⊢
    rw [ho]
    rcases h1 with h1 | ⟨e1, e2⟩
    · rcases a7 r u h1 with h | h
      · exact .inl h
      · have : r ≠ ⟨k, i⟩ := by rintro rfl; rw [hnone] at h; cases h
        rw [if_neg this]
        exact .inr h
    · rw [if_pos e1, e2]
      exact .inr rfl
  · intro v hv
    rcases a7 _ v hv with h | h
    · exact h
    · rw [hnone] at h; cases h
  · intro q hq
    have := (a2 q s.uses).1 hq
    omega

theorem Own.release {s s' : Sys} {log : List Note} (h : Own s log) {r : Ref} {u : Nat} (hr : (s.slot r).owner = some u)
    (ho : ∀ x, (s'.slot x).owner = if x = r then none else (s.slot x).owner)
    (hf : ∀ k, s'.free k = if k = r.kind then s.free r.kind ++ [r.idx] else s.free k) (hu : s'.uses = s.uses) :
    Own s' (log ++ [.freed r u]) := by
  obtain ⟨a1, a2, a3, a4, a5, a6, a7, a8⟩ := h
  have slots : ∀ x v, (s'.slot x).owner = some v → x ≠ r ∧ (s.slot x).owner = some v := by
    intro x v hv
    rw [ho] at hv
    split at hv
    · cases hv
    · rename_i e; exact ⟨e, hv⟩
  refine ⟨?_, ?_, ?_, ?_, ?_, ?_, ?_, a8.snoc (a1 r u hr)⟩
  · intro x v hv
    obtain ⟨e, hv⟩ := slots x v hv
    obtain ⟨y, z⟩ := a1 x v hv
    refine ⟨by simp [y], ?_⟩
    intro q hq
    simp only [List.mem_append, List.mem_singleton, Note.freed.injEq] at hq
    rcases hq with hq | ⟨_, rfl⟩
    · exact z q hq
    · exact e (a4 x r v hv hr)
  · intro q v
    rw [hu]
    simp only [List.mem_append, List.mem_singleton, Note.freed.injEq, reduceCtorEq, or_false]
    refine ⟨(a2 q v).1, ?_⟩
    rintro (h | ⟨_, rfl⟩)
    · exact (a2 q v).2 h
    · exact a3 r v hr
  · intro x v hv
    rw [hu]
    exact a3 x v (slots x v hv).2
  · exact fun x y v h1 h2 => a4 x y v (slots x v h1).2 (slots y v h2).2
  · intro k
    rw [hf]
    split
    · rw [List.nodup_append]
      refine ⟨a5 _, by simp, ?_⟩
      intro a ha b hb e
      rw [List.mem_singleton.1 hb] at e
      subst e
      have : (s.slot r).owner = none := a6 r.kind r.idx ha
      rw [hr] at this
      cases this
    · exact a5 k
  · intro k i hi
    rw [ho]
    split
    · rfl
    · rename_i e
      rw [hf] at hi
      split at hi
      · rename_i ek
        subst ek
        rcases List.mem_append.1 hi with hi | hi
        · exact a6 _ i hi
        · rw [List.mem_singleton.1 hi] at e; exact absurd rfl e
      · exact a6 k i hi
  · intro x v hv
    simp only [List.mem_append, List.mem_singleton, Note.freed.injEq, reduceCtorEq, or_false] at hv ⊢
    rw [ho]
    rcases a7 x v hv with h | h
    · exact .inl (.inl h)
    · by_cases e : x = r
      · subst e
        rw [hr] at h
        injection h with h
        exact .inl (.inr ⟨rfl, h.symm⟩)
      · rw [if_neg e]
        exact .inr h

theorem close_quiet (s : Sys) (r : Ref) : ∀ a ∈ (s.close r).2, a.quiet = true := by
  unfold Sys.close
  split
  · simp
  · split <;> simp [Note.quiet]

theorem own_op {s s' : Sys} {log : List Note} {o : Op} {ns : List Note} (h : Own s log) (hs : op s o = some (s', ns)) :
    Own s' (log ++ ns) := by
  have same : some (s, ([] : List Note)) = some (s', ns) → Own s' (log ++ ns) := by
    intro e
    injection e with e
    injection e with e1 e2
    subst e1; subst e2
    simpa using h
  cases o with
  | link =>
    simp only [op] at hs
    split at hs
    · exact same hs
    · rename_i i rest hf
      injection hs with e
      injection e with e1 e2
      subst e1; subst e2
      refine h.take hf ?_ (fun _ => rfl) rfl
      intro r
      simp only [Sys.setSlot, Sys.setFree]
      split <;> rfl
  | timer n ok =>
    simp only [op] at hs
    split at hs
    case isFalse => cases hs
    split at hs
    · exact same hs
    rename_i i rest hf
    have shrink : ∀ k, (if k = Kind.timer then rest else s.free k).Sublist (s.free k) := by
      intro k
      split
      · rename_i e; subst e; rw [hf]; exact List.sublist_cons_self i rest
      · exact List.Sublist.refl _
    split at hs
    · injection hs with e
      injection e with e1 e2
      subst e1; subst e2
      simp only [List.append_nil]
      exact h.same (fun _ => rfl) shrink rfl
    split at hs
    · injection hs with e
      injection e with e1 e2
      subst e1; subst e2
      have e : ∀ (a b : Note), log ++ [a, b] = (log ++ [a]) ++ [b] := by simp
      rw [e]
      refine (h.quiet (ns := [.opened ⟨.timer, i⟩ s.files]) (by simp [Note.quiet])).take hf ?_ (fun _ => rfl) rfl
      intro r
      simp only [Sys.setSlot, Sys.setFree, Sys.openAs]
      split <;> rfl
    · injection hs with e
      injection e with e1 e2
      subst e1; subst e2
      simp only [List.append_nil]
      refine h.same ?_ shrink rfl
      intro r
      simp only [Sys.setSlot, Sys.setFree]
      split
      · rename_i e; rw [e]
      · rfl
  | connect i n =>
    simp only [op] at hs
    split at hs
    case isFalse => cases hs
    split at hs
    · exact same hs
    injection hs with e
    injection e with e1 e2
    subst e1; subst e2
    refine Own.quiet (h.same ?_ (fun _ => List.Sublist.refl _) rfl) (by simp [Note.quiet])
    intro r
    simp only [Sys.setSlot, Sys.openAs]
    split
    · rename_i e; rw [e]
    · rfl
  | accept i n ok =>
    simp only [op] at hs
    split at hs
    case isFalse => cases hs
    split at hs
    · injection hs with e
      injection e with e1 e2
      subst e1; subst e2
      exact Own.quiet (h.same (fun _ => rfl) (fun _ => List.Sublist.refl _) rfl) (by simp)
    split at hs <;>
    · injection hs with e
      injection e with e1 e2
      subst e1; subst e2
      refine Own.quiet (h.same ?_ (fun _ => List.Sublist.refl _) rfl) (by simp [Note.quiet])
      intro r
      simp only [Sys.setSlot, Sys.openAs]
      split
      · rename_i e; rw [e]
      · rfl
  | close i =>
    simp only [op] at hs
    split at hs
    case isFalse => cases hs
    injection hs with e
    have e1 : (s.close ⟨.link, i⟩).1 = s' := by rw [e]
    have e2 : (s.close ⟨.link, i⟩).2 = ns := by rw [e]
    subst e2
    rw [close_eq] at e1
    subst e1
    refine Own.quiet (h.same ?_ (fun _ => List.Sublist.refl _) rfl) (close_quiet _ _)
    intro r
    simp only
    split
    · rename_i e; rw [e]
    · rfl
  | release r =>
    simp only [op] at hs
    split at hs
    · cases hs
    rename_i u hu
    injection hs with e
    injection e with e1 e2
    rw [release_eq] at e1
    subst e1; subst e2
    rw [← List.append_assoc]
    refine (h.quiet (close_quiet s r)).release hu ?_ (fun _ => rfl) rfl
    intro x
    simp only
    split <;> rfl
  | arm i =>
    simp only [op] at hs
    split at hs
    case isFalse => cases hs
    split at hs
    · exact same hs
    split at hs
    · exact same hs
    injection hs with e
    injection e with e1 e2
    subst e1; subst e2
    exact Own.quiet (h.same (fun _ => rfl) (fun _ => List.Sublist.refl _) rfl) (by simp [Note.quiet])
  | expire n =>
    simp only [op] at hs
    split at hs
    case h_2 => cases hs
    split at hs
    case isFalse => cases hs
    injection hs with e
    injection e with e1 e2
    subst e1; subst e2
    exact Own.quiet (h.same (fun _ => rfl) (fun _ => List.Sublist.refl _) rfl) (by simp [Note.quiet])
  | edge n =>
    simp only [op] at hs
    split at hs
    case h_2 => cases hs
    split at hs
    case isFalse => cases hs
    injection hs with e
    injection e with e1 e2
    subst e1; subst e2
    exact Own.quiet (h.same (fun _ => rfl) (fun _ => List.Sublist.refl _) rfl) (by simp)

theorem own_event {s s' : Sys} {log : List Note} {e : Entry} {ns : List Note} (h : Own s log) (hs : onEvent s e = some (s', ns)) :
    Own s' (log ++ ns) := by
  obtain ⟨h1, h2, h3⟩ := event_same hs
  refine Own.same ?_ h1 (fun k => by rw [h2]; exact List.Sublist.refl _) h3
  have calls : ∀ (r : Ref) (w : What) (u : Nat) (was : Option Nat) (f : Nat) (now : Option Nat), (s.slot r).owner = some u →
      ∀ pre : List Note, (∀ a ∈ pre, a.quiet = true) → Own s (log ++ (pre ++ [.call r w u was f now])) := by
    intro r w u was f now hu pre hp
    have k := h.quiet hp
    rw [← List.append_assoc]
    exact k.note ⟨by simp, by simp⟩ (k.own r u hu)
  unfold onEvent at hs
  split at hs
  · injection hs with hs
    unfold onLink at hs
    split at hs
    · injection hs with e1 e2; subst e2
      exact h.quiet (by simp [Note.quiet])
    rename_i u hu
    split at hs
    · injection hs with e1 e2; subst e2
      exact calls _ _ _ _ _ _ hu [] (by simp)
    split at hs
    · injection hs with e1 e2; subst e2
      exact calls _ _ _ _ _ _ hu [] (by simp)
    · injection hs with e1 e2; subst e2
      exact calls _ _ _ _ _ _ hu _ (close_quiet _ _)
  · unfold onTimer at hs
    split at hs
    · cases hs
    split at hs
    · cases hs
    split at hs
    · injection hs with hs
      injection hs with e1 e2; subst e2
      simpa using h
    split at hs
    · injection hs with hs
      injection hs with e1 e2; subst e2
      exact h.quiet (by simp [Note.quiet])
    · rename_i u hu
      injection hs with hs
      injection hs with e1 e2; subst e2
      exact calls _ _ _ _ _ _ hu [] (by simp)

/-- In every history a pooled object has one owner at a time, only the owner gives it back, and nobody is called before taking or
after giving back an object. -/
theorem C62_owner (bs : List (List (Pick × Reaction))) (s : Sys) (log : List Note) (h : run init [] bs = some (s, log)) :
    AllOk Served log := by
  refine (run_keep (P := Own) ?_ ?_ ?_ ?_ own_init h).ok
  · exact fun s log n f h _ => h.same (fun _ => rfl) (fun _ => List.Sublist.refl _) rfl
  · exact fun s s' log o ns _ h hs => own_op h hs
  · exact fun s s' log e ns h hs => own_event h hs
  · exact fun s log f h => h.quiet (by simp [Note.quiet])

/-- The object is given back and taken by somebody else; calls go to the second owner only. -/
example : ((run init [] [[(.other, ⟨List.replicate 32 .link ++ [.release ⟨.link, 3⟩, .link, .connect 3 9, .edge 9], false⟩)],
    [(.fd 9 1, ⟨[], false⟩)]]).map fun x => x.2.drop 32) = some [.freed ⟨.link, 3⟩ 3, .taken ⟨.link, 3⟩ 32, .opened ⟨.link, 3⟩ 0,
      .call ⟨.link, 3⟩ .data 32 (some 32) 0 (some 0)] := by decide +kernel

/-! ## C63: time-outs -/

/-- The timer descriptor has expired, and since then it was neither set nor reported. -/
def dueIn (log : List Note) (f : Nat) : Prop :=
  ∃ pre post, log = pre ++ .expired f :: post ∧ .set f ∉ post ∧ ∀ r u was g, .call r .timeout u was g (some f) ∉ post

/-- A time-out is reported only for the timer's own open descriptor, after it has expired, once for each expiration, and not
when the timer was stopped or started again in between. -/
def Timely (pre : List Note) : Note → Prop
  | .call r .timeout _ _ _ now =>
    ∃ f, now = some f ∧ dueIn pre f ∧ .opened r f ∈ pre ∧ ∀ q, .closed q f ∉ pre
  | _ => True

structure Due (s : Sys) (log : List Note) : Prop where
  inv : Inv s log
  due : ∀ n f, s.tab n = some f → f.due = true → dueIn log f.id
  ok : AllOk Timely log

def Note.dull (g : Nat) : Note → Bool
  | .set f => f != g
  | .call _ .timeout _ _ _ now => now != some g
  | _ => true

theorem dueIn_append {log ns : List Note} {f : Nat} (h : dueIn log f) (hn : ∀ a ∈ ns, a.dull f = true) : dueIn (log ++ ns) f := by
  obtain ⟨pre, post, e, h1, h2⟩ := h
  refine ⟨pre, post ++ ns, by simp [e], ?_, ?_⟩
  · intro hm
    rcases List.mem_append.1 hm with hm | hm
    · exact h1 hm
    · have := hn _ hm
      simp [Note.dull] at this
  · intro r u was g hm
    rcases List.mem_append.1 hm with hm | hm
    · exact h2 _ _ _ _ hm
    · have := hn _ hm
      simp [Note.dull] at this

/-- Steps that report no time-out and make no timer due. -/
theorem Due.keep {s s' : Sys} {log ns : List Note} (h : Due s log) (hi : Inv s' (log ++ ns))
    (hd : ∀ n f, s'.tab n = some f → f.due = true → (∃ m g, s.tab m = some g ∧ g.due = true ∧ g.id = f.id) ∧ ∀ a ∈ ns, a.dull f.id = true)
    (hn : ∀ a ∈ ns, ∀ r u was f now, a ≠ .call r .timeout u was f now) : Due s' (log ++ ns) := by
  refine ⟨hi, ?_, ?_⟩
  · intro n f h1 h2
    obtain ⟨⟨m, g, g1, g2, g3⟩, h3⟩ := hd n f h1 h2
    exact dueIn_append (g3 ▸ h.due m g g1 g2) h3
  · have : ∀ l : List Note, (∀ a ∈ l, ∀ r u was f now, a ≠ .call r .timeout u was f now) → ∀ log, AllOk Timely log → AllOk Timely (log ++ l) := by
      intro l
      induction l with
      | nil => intro _ log h; simpa using h
      | cons a l ih =>
        intro hl log h
        have : AllOk Timely (log ++ [a]) := by
          refine h.snoc ?_
          cases a with
          | call r w u was f now =>
            cases w with
            | timeout => exact absurd rfl (hl _ (by simp) r u was f now)
            | _ => trivial
          | _ => trivial
        simpa using ih (fun b hb => hl b (by simp [hb])) _ this
    exact this ns hn log h.ok

theorem close_tab (s : Sys) (r : Ref) (n : Nat) (f : File) (h : (s.close r).1.tab n = some f) : s.tab n = some f := by
  rw [close_eq] at h
  simp only at h
  split at h
  · cases h
  · exact h

theorem close_dull (s : Sys) (r : Ref) : ∀ a ∈ (s.close r).2, (∀ g, a.dull g = true) ∧ ∀ r u was f now, a ≠ .call r .timeout u was f now := by
  unfold Sys.close
  split
  · simp
  · split <;> simp [Note.dull]

theorem due_op {s s' : Sys} {log : List Note} {o : Op} {ns : List Note} (h : Due s log) (ho : o.sound = true)
    (hs : op s o = some (s', ns)) : Due s' (log ++ ns) := by
  have hi := inv_op h.inv ho hs
  have stay : ∀ (ns : List Note), (∀ n f, s'.tab n = some f → f.due = true → s.tab n = some f) → Inv s' (log ++ ns) →
      (∀ a ∈ ns, (∀ g, a.dull g = true) ∧ ∀ r u was f now, a ≠ .call r .timeout u was f now) → Due s' (log ++ ns) := by
    intro ns ht hi hn
    exact h.keep hi (fun n f h1 h2 => ⟨⟨n, f, ht n f h1 h2, h2, rfl⟩, fun a ha => (hn a ha).1 _⟩) fun a ha => (hn a ha).2
  have same : some (s, ([] : List Note)) = some (s', ns) → Due s' (log ++ ns) := by
    intro e
    injection e with e
    injection e with e1 e2
    subst e1; subst e2
    simpa using h
  have opens : ∀ n r w m f, (if m = n then some (⟨s.files, r, w, false, false⟩ : File) else s.tab m) = some f → f.due = true →
      s.tab m = some f := by
    intro n r w m f h1 h2
    split at h1
    · injection h1 with h1; subst h1; cases h2
    · exact h1
  cases o with
  | link =>
    simp only [op] at hs
    split at hs
    · exact same hs
    · injection hs with e
      injection e with e1 e2
      subst e1; subst e2
      exact stay _ (fun n f h _ => h) hi (by simp [Note.dull])
  | timer n ok =>
    simp only [op] at hs
    split at hs
    case isFalse => cases hs
    split at hs
    · exact same hs
    split at hs
    · injection hs with e
      injection e with e1 e2
      subst e1; subst e2
      exact stay _ (fun n f h _ => h) hi (by simp)
    split at hs
    · injection hs with e
      injection e with e1 e2
      subst e1; subst e2
      exact stay _ (fun m f h1 h2 => opens _ _ _ m f h1 h2) hi (by simp [Note.dull])
    · injection hs with e
      injection e with e1 e2
      subst e1; subst e2
      exact stay _ (fun n f h _ => h) hi (by simp)
  | connect i n =>
    simp only [op] at hs
    split at hs
    case isFalse => cases hs
    split at hs
    · exact same hs
    injection hs with e
    injection e with e1 e2
    subst e1; subst e2
    exact stay _ (fun m f h1 h2 => opens _ _ _ m f h1 h2) hi (by simp [Note.dull])
  | accept i n ok =>
    simp only [op] at hs
    split at hs
    case isFalse => cases hs
    split at hs
    · injection hs with e
      injection e with e1 e2
      subst e1; subst e2
      exact stay _ (fun m f h1 h2 => opens _ _ _ m f h1 h2) hi (by simp)
    split at hs
    · injection hs with e
      injection e with e1 e2
      subst e1; subst e2
      exact stay _ (fun m f h1 h2 => opens _ _ _ m f h1 h2) hi (by simp [Note.dull])
    · injection hs with e
      injection e with e1 e2
      subst e1; subst e2
      exact stay _ (fun n f h _ => h) hi (by simp)
  | close i =>
    simp only [op] at hs
    split at hs
    case isFalse => cases hs
    injection hs with e
    have e1 : (s.close ⟨.link, i⟩).1 = s' := by rw [e]
    have e2 : (s.close ⟨.link, i⟩).2 = ns := by rw [e]
    subst e1; subst e2
    exact stay _ (fun m f h1 _ => close_tab _ _ m f h1) hi (close_dull _ _)
  | release r =>
    simp only [op] at hs
    split at hs
    · cases hs
    injection hs with e
    injection e with e1 e2
    subst e1; subst e2
    refine stay _ (fun m f h1 _ => close_tab _ _ m f h1) hi ?_
    intro a ha
    rcases List.mem_append.1 ha with ha | ha
    · exact close_dull _ _ a ha
    · rw [List.mem_singleton.1 ha]; simp [Note.dull]
  | arm i =>
    simp only [op] at hs
    split at hs
    case isFalse => cases hs
    split at hs
    · exact same hs
    rename_i n hn
    split at hs
    · exact same hs
    rename_i f hf
    injection hs with e
    injection e with e1 e2
    subst e1; subst e2
    refine h.keep hi ?_ (by simp)
    intro m g h1 h2
    simp only [Sys.setTab] at h1
    split at h1
    · injection h1 with h1; subst h1; cases h2
    · rename_i hm
      refine ⟨⟨m, g, h1, h2, rfl⟩, ?_⟩
      simp only [List.mem_singleton, forall_eq, Note.dull, bne_iff_ne, ne_eq]
      intro e
      exact hm (h.inv.inj _ _ _ _ h1 hf e.symm)
  | expire n =>
    simp only [op] at hs
    split at hs
    case h_2 => cases hs
    rename_i f hf
    split at hs
    case isFalse => cases hs
    injection hs with e
    injection e with e1 e2
    subst e1; subst e2
    refine ⟨hi, ?_, h.ok.snoc trivial⟩
    intro m g h1 h2
    simp only [Sys.setTab] at h1
    split at h1
    · injection h1 with h1
      subst h1
      exact ⟨log, [], rfl, by simp, by simp⟩
    · exact dueIn_append (h.due m g h1 h2) (by simp [Note.dull])
  | edge n =>
    simp only [op] at hs
    split at hs
    case h_2 => cases hs
    rename_i f hf
    split at hs
    case isFalse => cases hs
    injection hs with e
    injection e with e1 e2
    subst e1; subst e2
    refine h.keep hi ?_ (by simp)
    intro m g h1 h2
    refine ⟨?_, by simp⟩
    simp only [Sys.setTab] at h1
    split at h1
    · injection h1 with h1
      subst h1
      exact ⟨n, f, hf, h2, rfl⟩
    · exact ⟨m, g, h1, h2, rfl⟩

theorem due_event {s s' : Sys} {log : List Note} {e : Entry} {ns : List Note} (h : Due s log) (hs : onEvent s e = some (s', ns)) :
    Due s' (log ++ ns) := by
  have hi := inv_event h.inv hs
  unfold onEvent at hs
  split at hs
  · injection hs with hs
    have stay : (∀ n f, s'.tab n = some f → s.tab n = some f) →
        (∀ a ∈ ns, (∀ g, a.dull g = true) ∧ ∀ r u was f now, a ≠ .call r .timeout u was f now) → Due s' (log ++ ns) := by
      intro ht hn
      exact h.keep hi (fun n f h1 h2 => ⟨⟨n, f, ht n f h1, h2, rfl⟩, fun a ha => (hn a ha).1 _⟩) fun a ha => (hn a ha).2
    unfold onLink at hs
    split at hs
    · injection hs with e1 e2; subst e1; subst e2
      exact stay (fun n f h => h) (by simp [Note.dull])
    split at hs
    · injection hs with e1 e2; subst e1; subst e2
      exact stay (fun n f h => h) (by simp [Note.dull])
    split at hs
    · injection hs with e1 e2; subst e1; subst e2
      exact stay (fun n f h => h) (by simp [Note.dull])
    · injection hs with e1 e2; subst e1; subst e2
      refine stay (fun n f h => close_tab _ _ n f h) ?_
      intro a ha
      rcases List.mem_append.1 ha with ha | ha
      · exact close_dull _ _ a ha
      · rw [List.mem_singleton.1 ha]; simp [Note.dull]
  · unfold onTimer at hs
    split at hs
    · cases hs
    rename_i n hn
    split at hs
    · cases hs
    rename_i f hf
    split at hs
    · injection hs with hs
      injection hs with e1 e2; subst e1; subst e2
      simpa using h
    rename_i hdue
    have hdue' : f.due = true := by simpa using hdue
    have others : ∀ m g, (s.setTab n (some { f with due := false })).tab m = some g → g.due = true → m ≠ n ∧ s.tab m = some g := by
      intro m g h1 h2
      simp only [Sys.setTab] at h1
      split at h1
      · injection h1 with h1; subst h1; cases h2
      · rename_i hm; exact ⟨hm, h1⟩
    split at hs
    · injection hs with hs
      injection hs with e1 e2; subst e1; subst e2
      exact h.keep hi (fun m g h1 h2 => ⟨⟨m, g, (others m g h1 h2).2, h2, rfl⟩, by simp [Note.dull]⟩) (by simp)
    · rename_i u hu
      injection hs with hs
      injection hs with e1 e2; subst e1; subst e2
      refine ⟨hi, ?_, h.ok.snoc ?_⟩
      · intro m g h1 h2
        obtain ⟨hm, h1⟩ := others m g h1 h2
        refine dueIn_append (h.due m g h1 h2) ?_
        simp only [List.mem_singleton, forall_eq, Note.dull, bne_iff_ne, ne_eq, Option.some.injEq]
        intro e
        exact hm (h.inv.inj _ _ _ _ h1 hf e.symm)
      · obtain ⟨f', f1, f2, f3, f4, f5⟩ := h.inv.held e.ref n (by simp [hu]) hn
        rw [hf] at f1
        injection f1 with f1
        subst f1
        exact ⟨f.id, rfl, h.due n f hf hdue', f4, f5⟩

/-- Time-outs come from expirations of the timer as it was last set. -/
theorem C63_timeout_partial (bs : List (List (Pick × Reaction))) (s : Sys) (log : List Note) (hb : sound bs)
    (h : run init [] bs = some (s, log)) : AllOk Timely log := by
  refine (run_keep (P := Due) ?_ ?_ ?_ ?_ ⟨inv_init, ?_, ?_⟩ h).ok
  · intro s log n f h hf
    refine ⟨h.inv.touch hf rfl rfl rfl, ?_, h.ok⟩
    intro m g h1 h2
    simp only [Sys.setTab] at h1
    split at h1
    · injection h1 with h1
      subst h1
      exact h.due n f hf h2
    · exact h.due m g h1 h2
  · intro s s' log o ns ⟨b, hb', x, hx, ho⟩ h hs
    exact due_op h (hb b hb' x hx o ho) hs
  · exact fun s s' log e ns h hs => due_event h hs
  · exact fun s log f h => ⟨h.inv.plain rfl, fun n g h1 h2 => dueIn_append (h.due n g h1 h2) (by simp [Note.dull]), h.ok.snoc trivial⟩
  · intro n f h
    cases h
  · exact AllOk.nil

/-- Two timers expire; the handler of the first stops the second. -/
example : (run init [] [[(.other, ⟨[.timer 7 true, .timer 8 true, .arm 0, .arm 1, .expire 7, .expire 8], false⟩)],
    [(.fd 7 1, ⟨[.arm 1], false⟩), (.fd 8 1, ⟨[], false⟩)]]).map (·.2) = some
    [.opened ⟨.timer, 0⟩ 0, .taken ⟨.timer, 0⟩ 0, .opened ⟨.timer, 1⟩ 1, .taken ⟨.timer, 1⟩ 1, .set 0, .set 1, .expired 0, .expired 1,
      .call ⟨.timer, 0⟩ .timeout 0 (some 0) 0 (some 0), .set 1] := by decide +kernel

/-! ## C63: state of a link when its owner is called -/

/-- A link is reported as connected only while it has an open descriptor of its own, and as failed only when all its descriptors
are closed. -/
def Linked (pre : List Note) : Note → Prop
  | .call r .connected _ _ _ now => ∃ f, now = some f ∧ .opened r f ∈ pre ∧ ∀ q, .closed q f ∉ pre
  | .call r .error _ _ _ _ => ∀ f, .opened r f ∈ pre → .closed r f ∈ pre
  | _ => True

def Note.isCall : Note → Bool
  | .call .. => true
  | _ => false

theorem linked_append {ns : List Note} (hn : ∀ a ∈ ns, a.isCall = false) : ∀ {log : List Note}, AllOk Linked log → AllOk Linked (log ++ ns) := by
  induction ns with
  | nil => intro log h; simpa using h
  | cons a l ih =>
    intro log h
    have : AllOk Linked (log ++ [a]) := by
      refine h.snoc ?_
      have := hn a (by simp)
      cases a with
      | call => cases this
      | _ => trivial
    simpa using ih (fun b hb => hn b (by simp [hb])) this

theorem close_isCall (s : Sys) (r : Ref) : ∀ a ∈ (s.close r).2, a.isCall = false := by
  unfold Sys.close
  split
  · simp
  · split <;> simp [Note.isCall]

theorem op_isCall {s s' : Sys} {o : Op} {ns : List Note} (hs : op s o = some (s', ns)) : ∀ a ∈ ns, a.isCall = false := by
  have some' : ∀ {x y : Sys} {l m : List Note}, some (x, l) = some (y, m) → l = m := by
    intro x y l m h
    injection h with h
    injection h
  cases o with
  | close i =>
    simp only [op] at hs
    split at hs
    · have := Option.some.inj hs
      rw [← show (s.close ⟨.link, i⟩).2 = ns by rw [this]]
      exact close_isCall _ _
    · cases hs
  | release r =>
    simp only [op] at hs
    split at hs
    · cases hs
    · rw [← some' hs]
      intro a ha
      rcases List.mem_append.1 ha with ha | ha
      · exact close_isCall _ _ a ha
      · rw [List.mem_singleton.1 ha]; rfl
  | _ =>
    simp only [op] at hs
    repeat' split at hs
    all_goals cases hs
    all_goals simp [Note.isCall]

/-- Links are called in the state that the call tells about. -/
theorem C63_link_state_partial (bs : List (List (Pick × Reaction))) (s : Sys) (log : List Note) (hb : sound bs)
    (h : run init [] bs = some (s, log)) : AllOk Linked log := by
  refine (run_keep (P := fun s log => Inv s log ∧ AllOk Linked log) ?_ ?_ ?_ ?_ ⟨inv_init, AllOk.nil⟩ h).2
  · exact fun s log n f h hf => ⟨h.1.touch hf rfl rfl rfl, h.2⟩
  · exact fun s s' log o ns ⟨b, hb', x, hx, ho⟩ h hs => ⟨inv_op h.1 (hb b hb' x hx o ho) hs, linked_append (op_isCall hs) h.2⟩
  · intro s s' log e ns ⟨hi, hl⟩ hs
    have hi' := inv_event hi hs
    refine ⟨hi', ?_⟩
    unfold onEvent at hs
    split at hs
    · injection hs with hs
      unfold onLink at hs
      split at hs
      · injection hs with e1 e2; subst e2
        exact hl.snoc trivial
      rename_i u hu
      split at hs
      · injection hs with e1 e2; subst e2
        exact hl.snoc trivial
      split at hs
      · rename_i hm
        injection hs with e1 e2; subst e2
        refine hl.snoc ?_
        have hlist := hm.2
        unfold Sys.listed at hlist
        split at hlist
        · cases hlist
        · rename_i n hn
          obtain ⟨f, h1, _, _, h2, h3⟩ := hi.held e.ref n (by simp [hu]) hn
          exact ⟨f.id, by simp [Sys.now, hn, h1], h2, h3⟩
      · injection hs with e1 e2; subst e1; subst e2
        rw [← List.append_assoc]
        refine (linked_append (close_isCall _ _) hl).snoc ?_
        intro f hf
        have hx : .opened e.ref f ∈ log ++ ((s.close e.ref).2 ++ [.call e.ref .error u e.was e.file (s.now e.ref)]) := by
          rw [← List.append_assoc]
          exact List.mem_append_left _ hf
        rcases hi'.open' e.ref f hx with h | ⟨n, g, h, _⟩
        · rw [← List.append_assoc] at h
          rcases List.mem_append.1 h with h | h
          · exact h
          · simp at h
        · rw [close_eq] at h
          simp at h
    · unfold onTimer at hs
      repeat' split at hs
      all_goals cases hs
      all_goals first
        | exact hl.snoc trivial
        | simpa using hl
  · exact fun s log f h => ⟨h.1.plain rfl, h.2.snoc trivial⟩

/-- A link is reported as connected; an event that comes too late for a closed link is an error. -/
example : (run init [] [[(.other, ⟨[.link, .link, .connect 0 7, .connect 1 8, .edge 7, .edge 8], false⟩)],
    [(.fd 7 4, ⟨[.close 1], false⟩), (.fd 8 4, ⟨[], false⟩)]]).map (fun x => x.2.drop 4) = some
    [.call ⟨.link, 0⟩ .connected 0 (some 0) 0 (some 0), .closed ⟨.link, 1⟩ 1, .call ⟨.link, 1⟩ .error 1 (some 1) 1 none] := by
  decide +kernel

end Uscada.Dispatch
