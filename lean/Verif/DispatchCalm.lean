import Verif.DispatchOwn
/-!
# C63, continued: an event is handled once, by whom it is meant for
-/

namespace Uscada.Dispatch

open Uscada

/-! ## Specification -/

/-- An event of a link is handled by the use it was reported for, and the link still has the descriptor it was reported for, or has
none any more. -/
def Meant : Note → Prop
  | .call r _ to was file now => r.kind = .link → was = some to ∧ (now = some file ∨ now = none)
  | _ => True

/-- The object whose descriptor is reported. -/
def target (s : Sys) : Pick → Option Ref
  | .fd n _ => (s.tab n).map File.ref
  | .other => none

/-- The link that an operation gives a new descriptor. -/
def Op.opens : Op → Option Ref
  | .connect i _ => some ⟨.link, i⟩
  | .accept i _ _ => some ⟨.link, i⟩
  | _ => none

/-- No handler gives a new descriptor to a link that has an event later in the batch. -/
def calm (s : Sys) : List (Pick × Reaction) → Prop
  | [] => True
  | (_, r) :: rest => (∀ o ∈ r.ops, ∀ q, o.opens = some q → ∀ x ∈ rest, target s x.1 ≠ some q) ∧ calm s rest

/-- Attempts to create a link. -/
def creates (b : List Reaction) : Nat := (b.map fun r => r.ops.count .link).sum

/-- The timer that an operation gives back. -/
def Op.drops : Op → Option Ref
  | .release ⟨.timer, i⟩ => some ⟨.timer, i⟩
  | _ => none

/-- No handler throws, and no handler gives back a timer that has an event later in the batch. -/
def steady (s : Sys) : List (Pick × Reaction) → Prop
  | [] => True
  | (_, r) :: rest => r.throws = false ∧ (∀ o ∈ r.ops, ∀ q, o.drops = some q → ∀ x ∈ rest, target s x.1 ≠ some q) ∧ steady s rest

/-! ## What `collect` reports -/

/-- Entries fit to what is in the table. -/
def Fits (s : Sys) : List Pick → List (Option Entry) → Prop
  | [], [] => True
  | .other :: ps, none :: es => Fits s ps es
  | .fd n mask :: ps, some e :: es =>
    (∃ f, s.tab n = some f ∧ f.watched = true ∧ e = ⟨f.ref, mask, f.id, (s.slot f.ref).owner⟩) ∧ Fits s ps es
  | _, _ => False

/-- The table up to unreported events. -/
def Alike (s t : Sys) : Prop :=
  t.slot = s.slot ∧ t.free = s.free ∧ t.uses = s.uses ∧ ∀ n, (t.tab n).map (fun f => { f with edge := false }) = (s.tab n).map fun f => { f with edge := false }

theorem alike_touch {s : Sys} {n : Nat} {f : File} (hf : s.tab n = some f) : Alike s (s.setTab n (some { f with edge := false })) := by
  refine ⟨rfl, rfl, rfl, ?_⟩
  intro m
  simp only [Sys.setTab]
  split
  · rename_i e; rw [e, hf]; rfl
  · rfl

theorem alike_trans {s t u : Sys} (h : Alike s t) (k : Alike t u) : Alike s u :=
  ⟨k.1.trans h.1, k.2.1.trans h.2.1, k.2.2.1.trans h.2.2.1, fun n => (k.2.2.2 n).trans (h.2.2.2 n)⟩

theorem fits_alike {s t : Sys} (h : Alike s t) : ∀ {ps es}, Fits t ps es → Fits s ps es
  | [], [], _ => trivial
  | .other :: ps, none :: es, k => fits_alike (ps := ps) (es := es) h k
  | .fd n mask :: ps, some e :: es, ⟨⟨f, h1, h2, h3⟩, k⟩ => by
    refine ⟨?_, fits_alike h k⟩
    have := h.2.2.2 n
    rw [h1] at this
    cases hs : s.tab n with
    | none => rw [hs] at this; cases this
    | some g =>
      rw [hs] at this
      injection this with this
      injection this with e1 e2 e3 e4 e5
      refine ⟨g, rfl, e3 ▸ h2, ?_⟩
      rw [h3, e1, e2, h.1]
  | [], _ :: _, k => k.elim
  | .other :: _, [], k => k.elim
  | .other :: _, some _ :: _, k => k.elim
  | .fd _ _ :: _, [], k => k.elim
  | .fd _ _ :: _, none :: _, k => k.elim

theorem collect_fits {s s' : Sys} {ps : List Pick} {es : List (Option Entry)} (h : collect s ps = some (s', es)) :
    Fits s ps es ∧ Alike s s' := by
  induction ps generalizing s es with
  | nil =>
    injection h with e
    injection e with e1 e2
    subst e1; subst e2
    exact ⟨trivial, rfl, rfl, rfl, fun _ => rfl⟩
  | cons p ps ih =>
    cases p with
    | other =>
      simp only [collect, Option.bind_eq_bind, Option.bind_eq_some_iff] at h
      obtain ⟨⟨s1, x⟩, h1, hs⟩ := h
      injection hs with e
      injection e with e1 e2
      subst e1; subst e2
      exact ih h1
    | fd n mask =>
      simp only [collect] at h
      split at h
      case h_2 => cases h
      rename_i f hf
      split at h
      case isFalse => cases h
      rename_i hw
      simp only [Option.bind_eq_bind, Option.bind_eq_some_iff] at h
      obtain ⟨⟨s1, x⟩, h1, hs⟩ := h
      injection hs with e
      injection e with e1 e2
      subst e1; subst e2
      obtain ⟨k1, k2⟩ := ih h1
      have ha := alike_touch hf
      exact ⟨⟨⟨f, hf, hw.1, rfl⟩, fits_alike ha k1⟩, alike_trans ha k2⟩

theorem inv_collect {s s' : Sys} {log : List Note} {ps : List Pick} {es : List (Option Entry)} (h : Inv s log)
    (hs : collect s ps = some (s', es)) : Inv s' log :=
  collect_keep (P := fun s => Inv s log) (fun _ _ _ h hf => h.touch hf rfl rfl rfl) h hs

/-! ## Entries that are still meant for their owner -/

def Ok (s : Sys) (e : Entry) : Prop :=
  e.ref.kind = .link → ∃ w, e.was = some w ∧
    ((s.slot e.ref).owner = none ∨ (s.slot e.ref).owner = some w ∧ (s.now e.ref = none ∨ s.now e.ref = some e.file))

theorem Ok.mono {s s' : Sys} {e : Entry} (h : Ok s e) (ho : (s'.slot e.ref).owner = (s.slot e.ref).owner ∨ (s'.slot e.ref).owner = none)
    (hn : (s.slot e.ref).owner ≠ none → s'.now e.ref = none ∨ s'.now e.ref = s.now e.ref) : Ok s' e := by
  intro hk
  obtain ⟨w, h1, h2⟩ := h hk
  refine ⟨w, h1, ?_⟩
  rcases ho with ho | ho
  · rcases h2 with h2 | ⟨h2, h3⟩
    · exact .inl (ho.trans h2)
    · refine .inr ⟨ho.trans h2, ?_⟩
      rcases hn (by simp [h2]) with k | k
      · exact .inl k
      · rw [k]; exact h3
  · exact .inl ho

theorem close_now (s : Sys) (r q : Ref) : (s.close r).1.now q = none ∨ (s.close r).1.now q = s.now q := by
  rw [close_eq]
  simp only [Sys.now]
  by_cases hq : q = r
  · simp [hq]
  · rw [if_neg hq]
    cases hn : (s.slot q).num with
    | none => exact .inl rfl
    | some m =>
      simp only
      split
      · exact .inl rfl
      · exact .inr rfl

theorem close_owner (s : Sys) (r q : Ref) : ((s.close r).1.slot q).owner = (s.slot q).owner := by
  rw [close_eq]
  simp only
  split
  · rename_i e; rw [e]
  · rfl

theorem touch_now {s : Sys} {n : Nat} {f g : File} (hf : s.tab n = some f) (hid : g.id = f.id) (q : Ref) :
    (s.setTab n (some g)).now q = s.now q := by
  simp only [Sys.now, Sys.setTab]
  cases hn : (s.slot q).num with
  | none => rfl
  | some m =>
    simp only
    split
    · rename_i e; rw [e, hf]; simp [hid]
    · rfl

/-- A new descriptor changes nothing for the other links in use. -/
theorem open_now {s : Sys} {log : List Note} (h : Inv s log) {n : Nat} {r : Ref} {w : Bool} {q : Ref} (hn : s.tab n = none)
    (hq : (s.slot q).owner ≠ none) : (s.openAs n r w).now q = s.now q := by
  simp only [Sys.now, Sys.openAs]
  cases hm : (s.slot q).num with
  | none => rfl
  | some m =>
    obtain ⟨f, f1, _⟩ := h.held q m hq hm
    have : m ≠ n := by rintro rfl; rw [hn] at f1; cases f1
    simp [this]

theorem slot_now {s : Sys} {r q : Ref} {v : Slot} (h : q ≠ r) : (s.setSlot r v).now q = s.now q := by
  simp [Sys.now, Sys.setSlot, h]

theorem slot_owner {s : Sys} {r q : Ref} {v : Slot} (h : q ≠ r) : ((s.setSlot r v).slot q).owner = (s.slot q).owner := by
  simp [Sys.setSlot, h]

/-- The free identifiers begin with some that no entry of `E` is about, at least `c` of them. -/
def Room (s : Sys) (E : List Entry) (c : Nat) : Prop :=
  ∃ F G, s.free .link = F ++ G ∧ (∀ e ∈ E, e.ref.kind = .link → e.ref.idx ∉ F) ∧ c ≤ F.length

theorem Room.same {s s' : Sys} {E : List Entry} {c : Nat} (h : Room s E c) (hf : s'.free .link = s.free .link) : Room s' E c := by
  obtain ⟨F, G, h1, h2, h3⟩ := h
  exact ⟨F, G, hf.trans h1, h2, h3⟩

theorem op_calm {s s' : Sys} {log : List Note} {o : Op} {ns : List Note} {E : List Entry} {c : Nat} (h : Inv s log)
    (ho : o.sound = true) (hs : op s o = some (s', ns)) (hE : ∀ e ∈ E, Ok s e) (hR : Room s E ((if o = .link then 1 else 0) + c))
    (hc : ∀ e ∈ E, o.opens ≠ some e.ref) : (∀ e ∈ E, Ok s' e) ∧ Room s' E c ∧ ∀ a ∈ ns, Meant a := by
  have weak : o ≠ .link → Room s E c := by
    intro e
    rw [if_neg e, Nat.zero_add] at hR
    exact hR
  have same : some (s, ([] : List Note)) = some (s', ns) → (∀ e ∈ E, Ok s' e) ∧ Room s' E c ∧ ∀ a ∈ ns, Meant a := by
    intro e
    injection e with e
    injection e with e1 e2
    subst e1; subst e2
    obtain ⟨F, G, h1, h2, h3⟩ := hR
    exact ⟨hE, ⟨F, G, h1, h2, by omega⟩, by simp⟩
  cases o with
  | link =>
    simp only [op] at hs
    split at hs
    · exact same hs
    · rename_i i rest hf
      injection hs with e
      injection e with e1 e2
      subst e1; subst e2
      obtain ⟨F, G, h1, h2, h3⟩ := hR
      rw [if_pos rfl] at h3
      cases F with
      | nil => simp at h3
      | cons j F =>
        rw [h1] at hf
        injection hf with e1 e2
        subst e1
        refine ⟨?_, ⟨F, G, ?_, ?_, ?_⟩, by simp [Meant]⟩
        · intro e he hk
          have hne : e.ref ≠ ⟨.link, j⟩ := by
            intro x
            have := h2 e he hk
            rw [x] at this
            simp at this
          have := hE e he hk
          simpa [Sys.now, Sys.setSlot, Sys.setFree, hne] using this
        · exact e2.symm
        · exact fun e he hk x => h2 e he hk (by simp [x])
        · simp at h3; omega
  | timer n ok =>
    simp only [op] at hs
    split at hs
    case isFalse => cases hs
    rename_i hn
    split at hs
    · exact same hs
    rename_i i rest hf
    have hR := weak (by simp)
    split at hs
    · injection hs with e
      injection e with e1 e2
      subst e1; subst e2
      exact ⟨fun e he => (hE e he).mono (.inl rfl) fun _ => .inr rfl, hR.same rfl, by simp⟩
    split at hs
    · injection hs with e
      injection e with e1 e2
      subst e1; subst e2
      refine ⟨?_, hR.same rfl, by simp [Meant]⟩
      intro e he hk
      have hne : e.ref ≠ ⟨.timer, i⟩ := by intro x; rw [x] at hk; cases hk
      refine (hE e he).mono (s' := { ((s.setFree .timer rest).openAs n ⟨.timer, i⟩ true).setSlot ⟨.timer, i⟩ ⟨some n, some (s.setFree .timer rest).uses⟩ with uses := (s.setFree .timer rest).uses + 1 }) (.inl ?_) ?_ hk
      · exact slot_owner (s := (s.setFree .timer rest).openAs n ⟨.timer, i⟩ true) hne
      · intro hq
        refine .inr ?_
        have e1 := slot_now (s := (s.setFree .timer rest).openAs n ⟨.timer, i⟩ true) (v := ⟨some n, some (s.setFree .timer rest).uses⟩) hne
        have e2 := open_now h (r := ⟨.timer, i⟩) (w := true) hn hq
        exact e1.trans e2
    · injection hs with e
      injection e with e1 e2
      subst e1; subst e2
      refine ⟨?_, hR.same rfl, by simp⟩
      intro e he hk
      have hne : e.ref ≠ ⟨.timer, i⟩ := by intro x; rw [x] at hk; cases hk
      exact (hE e he).mono (.inl (slot_owner hne)) (fun _ => .inr (slot_now hne)) hk
  | connect i n =>
    simp only [op] at hs
    split at hs
    case isFalse => cases hs
    rename_i hcond
    split at hs
    · exact same hs
    injection hs with e
    injection e with e1 e2
    subst e1; subst e2
    refine ⟨?_, (weak (by simp)).same rfl, by simp [Meant]⟩
    intro e he hk
    have hne : e.ref ≠ ⟨.link, i⟩ := by intro x; exact hc e he (by simp [Op.opens, x])
    exact (hE e he).mono (.inl (slot_owner hne)) (fun hq => .inr ((slot_now hne).trans (open_now h hcond.2 hq))) hk
  | accept i n ok =>
    simp only [op] at hs
    split at hs
    case isFalse => cases hs
    rename_i hcond
    have hR := weak (by simp)
    split at hs
    · injection hs with e
      injection e with e1 e2
      subst e1; subst e2
      exact ⟨fun e he hk => (hE e he).mono (.inl rfl) (fun hq => .inr (open_now h hcond.2 hq)) hk, hR.same rfl, by simp⟩
    split at hs
    · injection hs with e
      injection e with e1 e2
      subst e1; subst e2
      refine ⟨?_, hR.same rfl, by simp [Meant]⟩
      intro e he hk
      have hne : e.ref ≠ ⟨.link, i⟩ := by intro x; exact hc e he (by simp [Op.opens, x])
      exact (hE e he).mono (.inl (slot_owner hne)) (fun hq => .inr ((slot_now hne).trans (open_now h hcond.2 hq))) hk
    · injection hs with e
      injection e with e1 e2
      subst e1; subst e2
      refine ⟨?_, hR.same rfl, by simp⟩
      intro e he hk
      have hne : e.ref ≠ ⟨.link, i⟩ := by intro x; exact hc e he (by simp [Op.opens, x])
      exact (hE e he).mono (.inl (slot_owner hne)) (fun hq => .inr (slot_now hne)) hk
  | close i =>
    simp only [op] at hs
    split at hs
    case isFalse => cases hs
    injection hs with e
    have e1 : (s.close ⟨.link, i⟩).1 = s' := by rw [e]
    have e2 : (s.close ⟨.link, i⟩).2 = ns := by rw [e]
    subst e1; subst e2
    refine ⟨fun e he => (hE e he).mono (.inl (close_owner _ _ _)) fun _ => close_now _ _ _, (weak (by simp)).same ?_, ?_⟩
    · rw [close_eq]
    · intro a ha
      have := close_quiet _ _ a ha
      cases a <;> first | trivial | cases this
  | release r =>
    simp only [op] at hs
    split at hs
    · cases hs
    injection hs with e
    injection e with e1 e2
    subst e1; subst e2
    have hR := weak (by simp)
    refine ⟨?_, ?_, ?_⟩
    · intro e he
      by_cases hq : e.ref = r
      · exact (hE e he).mono (.inr (by simp [Sys.setSlot, Sys.setFree, hq])) fun _ => .inl (by
          rw [close_eq]; simp [Sys.now, Sys.setSlot, Sys.setFree, hq])
      · refine (hE e he).mono (.inl ?_) fun _ => ?_
        · have := slot_owner (s := (s.close r).1) (v := { (s.close r).1.slot r with owner := none }) hq
          exact this.trans (close_owner s r e.ref)
        · have := slot_now (s := (s.close r).1) (v := { (s.close r).1.slot r with owner := none }) hq
          have k := close_now s r e.ref
          rw [← this] at k
          exact k
    · rw [release_eq]
      obtain ⟨F, G, h1, h2, h3⟩ := hR
      by_cases hk : Kind.link = r.kind
      · refine ⟨F, G ++ [r.idx], ?_, h2, h3⟩
        simp only [if_pos hk]
        rw [← hk, h1, List.append_assoc]
      · exact ⟨F, G, by simp only [if_neg hk]; exact h1, h2, h3⟩
    · intro a ha
      rcases List.mem_append.1 ha with ha | ha
      · have := close_quiet _ _ a ha
        cases a <;> first | trivial | cases this
      · rw [List.mem_singleton.1 ha]; trivial
  | arm i =>
    simp only [op] at hs
    split at hs
    case isFalse => cases hs
    split at hs
    · exact same hs
    split at hs
    · exact same hs
    rename_i f hf
    injection hs with e
    injection e with e1 e2
    subst e1; subst e2
    exact ⟨fun e he => (hE e he).mono (.inl rfl) fun _ => .inr (touch_now (g := { f with due := false }) hf rfl _), (weak (by simp)).same rfl, by simp [Meant]⟩
  | expire n =>
    simp only [op] at hs
    split at hs
    case h_2 => cases hs
    rename_i f hf
    split at hs
    case isFalse => cases hs
    injection hs with e
    injection e with e1 e2
    subst e1; subst e2
    exact ⟨fun e he => (hE e he).mono (.inl rfl) fun _ => .inr (touch_now (g := { f with due := true, edge := true }) hf rfl _), (weak (by simp)).same rfl, by simp [Meant]⟩
  | edge n =>
    simp only [op] at hs
    split at hs
    case h_2 => cases hs
    rename_i f hf
    split at hs
    case isFalse => cases hs
    injection hs with e
    injection e with e1 e2
    subst e1; subst e2
    exact ⟨fun e he => (hE e he).mono (.inl rfl) fun _ => .inr (touch_now (g := { f with edge := true }) hf rfl _), (weak (by simp)).same rfl, by simp⟩

theorem ops_calm {s s' : Sys} {log : List Note} {os : List Op} {ns : List Note} {E : List Entry} {c : Nat} (h : Inv s log)
    (ho : ∀ o ∈ os, o.sound = true) (hs : ops s os = some (s', ns)) (hE : ∀ e ∈ E, Ok s e) (hR : Room s E (os.count .link + c))
    (hc : ∀ o ∈ os, ∀ e ∈ E, o.opens ≠ some e.ref) : Inv s' (log ++ ns) ∧ (∀ e ∈ E, Ok s' e) ∧ Room s' E c ∧ ∀ a ∈ ns, Meant a := by
  induction os generalizing s log ns with
  | nil =>
    injection hs with e
    injection e with e1 e2
    subst e1; subst e2
    refine ⟨by simpa using h, hE, ?_, by simp⟩
    simpa using hR
  | cons o os ih =>
    simp only [ops, Option.bind_eq_bind, Option.bind_eq_some_iff] at hs
    obtain ⟨⟨s1, x⟩, h1, ⟨s2, y⟩, h2, hs⟩ := hs
    injection hs with e
    injection e with e1 e2
    subst e1; subst e2
    have hR' : Room s E ((if o = .link then 1 else 0) + (os.count .link + c)) := by
      have : (o :: os).count .link + c = (if o = .link then 1 else 0) + (os.count .link + c) := by
        rw [List.count_cons]
        by_cases e : o = .link
        · simp [e]; omega
        · simp [e]
      rw [← this]
      exact hR
    obtain ⟨k1, k2, k3⟩ := op_calm h (ho o (by simp)) h1 hE hR' (hc o (by simp))
    obtain ⟨l1, l2, l3, l4⟩ := ih (inv_op h (ho o (by simp)) h1) (fun o' h' => ho o' (by simp [h'])) h2 k1 k2
      fun o' h' => hc o' (by simp [h'])
    refine ⟨by rw [← List.append_assoc]; exact l1, l2, l3, ?_⟩
    intro a ha
    rcases List.mem_append.1 ha with ha | ha
    · exact k3 a ha
    · exact l4 a ha

theorem event_calm {s s' : Sys} {e : Entry} {ns : List Note} {E : List Entry} {c : Nat}
    (hs : onEvent s e = some (s', ns)) (hE : ∀ x ∈ e :: E, Ok s x) (hR : Room s (e :: E) c) :
    (∀ x ∈ E, Ok s' x) ∧ Room s' E c ∧ ∀ a ∈ ns, Meant a := by
  have hR' : Room s' E c := by
    obtain ⟨F, G, h1, h2, h3⟩ := hR
    exact ⟨F, G, by rw [(event_same hs).2.1]; exact h1, fun x hx => h2 x (by simp [hx]), h3⟩
  have hE' : ∀ x ∈ E, Ok s x := fun x hx => hE x (by simp [hx])
  unfold onEvent at hs
  split at hs
  · rename_i hk
    injection hs with hs
    have here := hE e (by simp) hk
    have call : ∀ (w : What) (u : Nat), (s.slot e.ref).owner = some u → Meant (.call e.ref w u e.was e.file (s.now e.ref)) := by
      intro w u hu _
      obtain ⟨v, h1, h2⟩ := here
      rw [hu] at h2
      rcases h2 with h2 | ⟨h2, h3⟩
      · cases h2
      · injection h2 with h2
        subst h2
        exact ⟨h1, h3.symm⟩
    unfold onLink at hs
    split at hs
    · injection hs with e1 e2; subst e1; subst e2
      exact ⟨hE', hR', by simp [Meant]⟩
    rename_i u hu
    split at hs
    · injection hs with e1 e2; subst e1; subst e2
      exact ⟨hE', hR', by simpa using call _ u hu⟩
    split at hs
    · injection hs with e1 e2; subst e1; subst e2
      exact ⟨hE', hR', by simpa using call _ u hu⟩
    · injection hs with e1 e2; subst e1; subst e2
      refine ⟨fun x hx => (hE' x hx).mono (.inl (close_owner _ _ _)) fun _ => close_now _ _ _, hR', ?_⟩
      intro a ha
      rcases List.mem_append.1 ha with ha | ha
      · have := close_quiet _ _ a ha
        cases a <;> first | trivial | cases this
      · rw [List.mem_singleton.1 ha]; exact call _ u hu
  · rename_i hk
    unfold onTimer at hs
    split at hs
    · cases hs
    split at hs
    · cases hs
    rename_i f hf
    split at hs
    · injection hs with hs
      injection hs with e1 e2; subst e1; subst e2
      exact ⟨hE', hR', by simp⟩
    split at hs <;>
    · injection hs with hs
      injection hs with e1 e2; subst e1; subst e2
      exact ⟨fun x hx => (hE' x hx).mono (.inl rfl) fun _ => .inr (touch_now (g := { f with due := false }) hf rfl _), hR', by simp [Meant, hk]⟩

/-! ## The loop -/

/-- `calm` for entries. -/
def calmE : List (Option Entry × Reaction) → Prop
  | [] => True
  | (_, r) :: rest => (∀ o ∈ r.ops, ∀ e ∈ rest.filterMap Prod.fst, o.opens ≠ some e.ref) ∧ calmE rest

theorem lostOf_meant (L : List (Option Entry × Reaction)) : ∀ a ∈ lostOf L, Meant a := by
  intro a ha
  obtain ⟨x, _, hx⟩ := List.mem_filterMap.1 ha
  cases hx' : x.1 with
  | none => rw [hx'] at hx; cases hx
  | some e => rw [hx'] at hx; injection hx with hx; subst hx; trivial

theorem dispatch_calm {s s' : Sys} {log : List Note} {L : List (Option Entry × Reaction)} {ns : List Note} (h : Inv s log)
    (ho : ∀ x ∈ L, ∀ o ∈ x.2.ops, o.sound = true) (hs : dispatch s L = some (s', ns)) (hE : ∀ e ∈ L.filterMap Prod.fst, Ok s e)
    (hR : Room s (L.filterMap Prod.fst) (creates (L.map Prod.snd))) (hc : calmE L) : ∀ a ∈ ns, Meant a := by
  induction L generalizing s log ns with
  | nil =>
    injection hs with e
    injection e with e1 e2
    subst e2
    simp
  | cons x L ih =>
    obtain ⟨x, r⟩ := x
    have hcr : creates (((x, r) :: L).map Prod.snd) = r.ops.count .link + creates (L.map Prod.snd) := by simp [creates]
    rw [hcr] at hR
    have rest : ∀ s log, Inv s log → (∀ e ∈ L.filterMap Prod.fst, Ok s e) →
        Room s (L.filterMap Prod.fst) (r.ops.count .link + creates (L.map Prod.snd)) → ∀ s1 o1, ops s r.ops = some (s1, o1) →
        (∀ a ∈ o1, Meant a) ∧ ∀ s2 o2, dispatch s1 L = some (s2, o2) → s2 = s' → ∀ a ∈ o2, Meant a := by
      intro s log h hE hR s1 o1 h1
      obtain ⟨k1, k2, k3, k4⟩ := ops_calm h (ho _ List.mem_cons_self) h1 hE hR hc.1
      refine ⟨k4, fun s2 o2 h2 e => ?_⟩
      subst e
      exact ih k1 (fun y hy => ho y (by simp [hy])) h2 k2 k3 hc.2
    cases x with
    | none =>
      simp only [dispatch, Option.bind_eq_bind] at hs
      rw [Option.bind_eq_some_iff] at hs
      obtain ⟨⟨s1, o1⟩, h1, hs⟩ := hs
      obtain ⟨k1, k2⟩ := rest s log h hE hR s1 o1 h1
      simp only at hs
      by_cases ht : r.throws = true
      · rw [if_pos ht] at hs
        injection hs with e
        injection e with e1 e2
        subst e2
        intro a ha
        rcases List.mem_append.1 ha with ha | ha
        · exact k1 a ha
        · exact lostOf_meant _ a ha
      · rw [if_neg ht] at hs
        rw [Option.bind_eq_some_iff] at hs
        obtain ⟨⟨s2, o2⟩, h2, hs⟩ := hs
        injection hs with e
        injection e with e1 e2
        subst e2
        intro a ha
        rcases List.mem_append.1 ha with ha | ha
        · exact k1 a ha
        · exact k2 s2 o2 h2 e1 a ha
    | some e =>
      simp only [dispatch] at hs
      split at hs
      · injection hs with e'
        injection e' with e1 e2
        subst e2
        exact lostOf_meant _
      · rename_i s0 o he
        obtain ⟨c1, c2, c3⟩ := event_calm (E := L.filterMap Prod.fst) he (by simpa using hE) (by simpa using hR)
        have k0 := inv_event h he
        rw [Option.bind_eq_bind, Option.bind_eq_some_iff] at hs
        obtain ⟨⟨s1, o1⟩, h1, hs⟩ := hs
        obtain ⟨k1, k2⟩ := rest s0 _ k0 c1 c2 s1 o1 h1
        simp only at hs
        by_cases ht : r.throws = true
        · rw [if_pos ht] at hs
          injection hs with e
          injection e with e1 e2
          subst e2
          intro a ha
          rcases List.mem_append.1 ha with ha | ha
          · exact c3 a ha
          rcases List.mem_append.1 ha with ha | ha
          · exact k1 a ha
          · exact lostOf_meant _ a ha
        · rw [if_neg ht] at hs
          rw [Option.bind_eq_some_iff] at hs
          obtain ⟨⟨s2, o2⟩, h2, hs⟩ := hs
          injection hs with e
          injection e with e1 e2
          subst e2
          intro a ha
          rcases List.mem_append.1 ha with ha | ha
          · exact c3 a ha
          rcases List.mem_append.1 ha with ha | ha
          · exact k1 a ha
          · exact k2 s2 o2 h2 e1 a ha

/-! ## From a batch to its entries -/

theorem fits_target {s : Sys} : ∀ {b : List (Pick × Reaction)} {es : List (Option Entry)}, Fits s (b.map Prod.fst) es →
    ∀ e ∈ (es.zip (b.map Prod.snd)).filterMap Prod.fst, ∃ x ∈ b, target s x.1 = some e.ref
  | [], _, _, e, he => by simp at he
  | (.other, r) :: b, none :: es, h, e, he => by
    simp only [List.map_cons, List.zip_cons_cons, List.filterMap_cons] at he
    obtain ⟨x, hx, hx'⟩ := fits_target (b := b) (es := es) h e he
    exact ⟨x, by simp [hx], hx'⟩
  | (.fd n mask, r) :: b, some e' :: es, h, e, he => by
    simp only [List.map_cons, List.zip_cons_cons, List.filterMap_cons, List.mem_cons] at he
    rcases he with he | he
    · subst he
      obtain ⟨⟨f, h1, _, h2⟩, _⟩ := h
      exact ⟨(.fd n mask, r), by simp, by rw [h2]; simp [target, h1]⟩
    · obtain ⟨x, hx, hx'⟩ := fits_target (b := b) (es := es) h.2 e he
      exact ⟨x, by simp [hx], hx'⟩
  | (.other, _) :: _, some _ :: _, h, _, _ => h.elim
  | (.other, _) :: _, [], h, _, _ => h.elim
  | (.fd _ _, _) :: _, none :: _, h, _, _ => h.elim
  | (.fd _ _, _) :: _, [], h, _, _ => h.elim

theorem fits_calm {s : Sys} : ∀ {b : List (Pick × Reaction)} {es : List (Option Entry)}, Fits s (b.map Prod.fst) es → calm s b →
    calmE (es.zip (b.map Prod.snd))
  | [], es, _, _ => by simp [calmE]
  | (p, r) :: b, [], h, _ => by cases p <;> exact h.elim
  | (p, r) :: b, e :: es, h, hc => by
    have hf : Fits s (b.map Prod.fst) es := by
      cases p <;> cases e
      · exact h.elim
      · exact h.2
      · exact h
      · exact h.elim
    refine ⟨?_, fits_calm hf hc.2⟩
    intro o ho e' he' e1
    obtain ⟨x, hx, hx'⟩ := fits_target hf e' he'
    exact hc.1 o ho _ e1 x hx hx'

theorem fits_length {s : Sys} : ∀ {ps : List Pick} {es : List (Option Entry)}, Fits s ps es → es.length = ps.length
  | [], [], _ => rfl
  | [], _ :: _, h => h.elim
  | .other :: ps, none :: es, h => by simp [fits_length (ps := ps) (es := es) h]
  | .fd _ _ :: ps, some _ :: es, h => by simp [fits_length (ps := ps) (es := es) h.2]
  | .other :: _, [], k => k.elim
  | .other :: _, some _ :: _, k => k.elim
  | .fd _ _ :: _, [], k => k.elim
  | .fd _ _ :: _, none :: _, k => k.elim

theorem fits_entry {s : Sys} : ∀ {ps : List Pick} {es : List (Option Entry)}, Fits s ps es → ∀ e, some e ∈ es →
    ∃ n f, s.tab n = some f ∧ f.watched = true ∧ e.ref = f.ref ∧ e.file = f.id ∧ e.was = (s.slot f.ref).owner
  | [], [], _, _, h => by simp at h
  | [], _ :: _, h, _, _ => h.elim
  | .other :: ps, none :: es, h, e, he => by
    simp only [List.mem_cons, reduceCtorEq, false_or] at he
    exact fits_entry (ps := ps) (es := es) h e he
  | .fd n mask :: ps, some e' :: es, h, e, he => by
    rcases List.mem_cons.1 he with he | he
    · injection he with he
      subst he
      obtain ⟨⟨f, h1, h2, h3⟩, _⟩ := h
      exact ⟨n, f, h1, h2, by rw [h3], by rw [h3], by rw [h3]⟩
    · exact fits_entry (ps := ps) (es := es) h.2 e he
  | .other :: _, [], k, _, _ => k.elim
  | .other :: _, some _ :: _, k, _, _ => k.elim
  | .fd _ _ :: _, [], k, _, _ => k.elim
  | .fd _ _ :: _, none :: _, k, _, _ => k.elim

theorem zip_entry {es : List (Option Entry)} {rs : List Reaction} {e : Entry} (h : e ∈ (es.zip rs).filterMap Prod.fst) : some e ∈ es := by
  obtain ⟨x, hx, he⟩ := List.mem_filterMap.1 h
  have := (List.of_mem_zip (a := x.1) (b := x.2) hx).1
  rw [he] at this
  exact this

/-- In a batch in which no handler opens a link with an event still to come, and not more links are created than were free before,
every event of a link is handled by the use it was reported for. -/
theorem C63_meant_partial (bs : List (List (Pick × Reaction))) (b : List (Pick × Reaction)) (s s' : Sys) (log ns : List Note)
    (hb : sound (bs ++ [b])) (h : run init [] bs = some (s, log)) (ht : turn s b = some (s', ns)) (hc : calm s b)
    (hn : creates (b.map Prod.snd) ≤ (s.free .link).length) : ∀ a ∈ ns, Meant a := by
  have hi : Inv s log := inv_run (fun x hx => hb x (by simp [hx])) h
  unfold turn at ht
  split at ht
  case isFalse => cases ht
  simp only [Option.bind_eq_bind, Option.bind_eq_some_iff] at ht
  obtain ⟨⟨s1, es⟩, h1, ht⟩ := ht
  obtain ⟨hf, hal⟩ := collect_fits h1
  have hi1 := inv_collect hi h1
  have hlen := fits_length hf
  have hsnd : (es.zip (b.map Prod.snd)).map Prod.snd = b.map Prod.snd := by
    rw [List.map_snd_zip]
    simp at hlen ⊢
    omega
  have now_eq : ∀ n f, s.tab n = some f → f.watched = true → s1.now f.ref = some f.id := by
    intro n f h2 h3
    have k := (hi.watched n f h2 h3).1
    have k2 := hal.2.2.2 n
    simp only [Sys.now, hal.1, k]
    cases h4 : s1.tab n with
    | none => rw [h4, h2] at k2; cases k2
    | some g =>
      rw [h4, h2] at k2
      injection k2 with k2
      injection k2 with k2
      simp [k2]
  refine dispatch_calm hi1 ?_ ht ?_ ?_ (fits_calm hf hc)
  · intro x hx o ho
    have := (List.of_mem_zip (a := x.1) (b := x.2) hx).2
    obtain ⟨y, hy, e⟩ := List.mem_map.1 this
    exact hb b (by simp) y hy o (by rw [e]; exact ho)
  · intro e he hk
    obtain ⟨n, f, h2, h3, h4, h5, h6⟩ := fits_entry hf e (zip_entry he)
    have k := (hi.watched n f h2 h3).2
    cases hw : (s.slot f.ref).owner with
    | none => exact absurd hw k
    | some w =>
      refine ⟨w, by rw [h6, hw], .inr ⟨by rw [hal.1, h4, hw], .inr ?_⟩⟩
      rw [h4, now_eq n f h2 h3, h5]
  · refine ⟨s.free .link, [], by rw [hal.2.1]; simp, ?_, by rw [hsnd]; exact hn⟩
    intro e he hk hin
    obtain ⟨n, f, h2, h3, h4, h5, h6⟩ := fits_entry hf e (zip_entry he)
    have k := (hi.watched n f h2 h3).2
    have : (s.slot e.ref).owner = none := by
      have e' : e.ref = ⟨.link, e.ref.idx⟩ := by rw [← hk]
      rw [e']
      exact (hi.free .link _ hin).2
    rw [h4] at this
    exact k this

/-! ## Nothing is lost -/

theorem op_owned {s s' : Sys} {o : Op} {ns : List Note} {r : Ref} (hs : op s o = some (s', ns)) (ho : o ≠ .release r)
    (h : (s.slot r).owner ≠ none) : (s'.slot r).owner ≠ none := by
  have same : some (s, ([] : List Note)) = some (s', ns) → (s'.slot r).owner ≠ none := by
    intro e
    injection e with e
    injection e with e1 e2
    subst e1
    exact h
  cases o with
  | link =>
    simp only [op] at hs
    split at hs
    · exact same hs
    · injection hs with e
      injection e with e1 e2
      subst e1
      simp only [Sys.setSlot, Sys.setFree]
      split
      · simp
      · exact h
  | timer n ok =>
    simp only [op] at hs
    split at hs
    case isFalse => cases hs
    split at hs
    · exact same hs
    split at hs
    · injection hs with e
      injection e with e1 e2
      subst e1
      exact h
    split at hs
    · injection hs with e
      injection e with e1 e2
      subst e1
      simp only [Sys.setSlot, Sys.setFree, Sys.openAs]
      split
      · simp
      · exact h
    · injection hs with e
      injection e with e1 e2
      subst e1
      simp only [Sys.setSlot, Sys.setFree]
      split
      · rename_i e; rw [← e]; exact h
      · exact h
  | connect i n =>
    simp only [op] at hs
    split at hs
    case isFalse => cases hs
    split at hs
    · exact same hs
    injection hs with e
    injection e with e1 e2
    subst e1
    simp only [Sys.setSlot, Sys.openAs]
    split
    · rename_i e; rw [← e]; exact h
    · exact h
  | accept i n ok =>
    simp only [op] at hs
    split at hs
    case isFalse => cases hs
    split at hs
    · injection hs with e
      injection e with e1 e2
      subst e1
      exact h
    split at hs <;>
    · injection hs with e
      injection e with e1 e2
      subst e1
      simp only [Sys.setSlot, Sys.openAs]
      split
      · rename_i e; rw [← e]; exact h
      · exact h
  | close i =>
    simp only [op] at hs
    split at hs
    case isFalse => cases hs
    injection hs with e
    have e1 : (s.close ⟨.link, i⟩).1 = s' := by rw [e]
    subst e1
    rw [close_owner]
    exact h
  | release q =>
    have hne : r ≠ q := by rintro rfl; exact ho rfl
    simp only [op] at hs
    split at hs
    · cases hs
    injection hs with e
    injection e with e1 e2
    rw [release_eq] at e1
    subst e1
    simpa [hne] using h
  | arm i =>
    simp only [op] at hs
    split at hs
    case isFalse => cases hs
    split at hs
    · exact same hs
    split at hs
    · exact same hs
    injection hs with e
    injection e with e1 e2
    subst e1
    exact h
  | expire n =>
    simp only [op] at hs
    split at hs
    case h_2 => cases hs
    split at hs
    case isFalse => cases hs
    injection hs with e
    injection e with e1 e2
    subst e1
    exact h
  | edge n =>
    simp only [op] at hs
    split at hs
    case h_2 => cases hs
    split at hs
    case isFalse => cases hs
    injection hs with e
    injection e with e1 e2
    subst e1
    exact h

theorem op_not_lost {s s' : Sys} {o : Op} {ns : List Note} (hs : op s o = some (s', ns)) (f : Nat) : .lost f ∉ ns := by
  cases o with
  | close i =>
    simp only [op] at hs
    split at hs
    case isFalse => cases hs
    injection hs with e
    have e2 : (s.close ⟨.link, i⟩).2 = ns := by rw [e]
    subst e2
    unfold Sys.close
    split
    · simp
    · split <;> simp
  | release r =>
    simp only [op] at hs
    split at hs
    · cases hs
    injection hs with e
    injection e with e1 e2
    subst e2
    unfold Sys.close
    split
    · simp
    · split <;> simp
  | link => simp only [op] at hs; split at hs <;> (injection hs with e; injection e with e1 e2; subst e2; simp)
  | timer n ok =>
    simp only [op] at hs
    split at hs
    case isFalse => cases hs
    split at hs
    · injection hs with e; injection e with e1 e2; subst e2; simp
    split at hs
    · injection hs with e; injection e with e1 e2; subst e2; simp
    split at hs <;> (injection hs with e; injection e with e1 e2; subst e2; simp)
  | connect i n =>
    simp only [op] at hs
    split at hs
    case isFalse => cases hs
    split at hs <;> (injection hs with e; injection e with e1 e2; subst e2; simp)
  | accept i n ok =>
    simp only [op] at hs
    split at hs
    case isFalse => cases hs
    split at hs
    · injection hs with e; injection e with e1 e2; subst e2; simp
    split at hs <;> (injection hs with e; injection e with e1 e2; subst e2; simp)
  | arm i =>
    simp only [op] at hs
    split at hs
    case isFalse => cases hs
    split at hs
    · injection hs with e; injection e with e1 e2; subst e2; simp
    split at hs <;> (injection hs with e; injection e with e1 e2; subst e2; simp)
  | expire n =>
    simp only [op] at hs
    split at hs
    case h_2 => cases hs
    split at hs
    case isFalse => cases hs
    injection hs with e; injection e with e1 e2; subst e2; simp
  | edge n =>
    simp only [op] at hs
    split at hs
    case h_2 => cases hs
    split at hs
    case isFalse => cases hs
    injection hs with e; injection e with e1 e2; subst e2; simp

theorem ops_steady {s s' : Sys} {log : List Note} {os : List Op} {ns : List Note} (h : Inv s log) (ho : ∀ o ∈ os, o.sound = true)
    (hs : ops s os = some (s', ns)) : Inv s' (log ++ ns) ∧ (∀ f, .lost f ∉ ns) ∧
    ∀ r, (s.slot r).owner ≠ none → .release r ∉ os → (s'.slot r).owner ≠ none := by
  induction os generalizing s log ns with
  | nil =>
    injection hs with e
    injection e with e1 e2
    subst e1; subst e2
    exact ⟨by simpa using h, by simp, fun r h _ => h⟩
  | cons o os ih =>
    simp only [ops, Option.bind_eq_bind, Option.bind_eq_some_iff] at hs
    obtain ⟨⟨s1, x⟩, h1, ⟨s2, y⟩, h2, hs⟩ := hs
    injection hs with e
    injection e with e1 e2
    subst e1; subst e2
    obtain ⟨k1, k2, k3⟩ := ih (inv_op h (ho o (by simp)) h1) (fun o' h' => ho o' (by simp [h'])) h2
    refine ⟨by rw [← List.append_assoc]; exact k1, ?_, ?_⟩
    · intro f hf
      rcases List.mem_append.1 hf with hf | hf
      · exact op_not_lost h1 f hf
      · exact k2 f hf
    · intro r hr hm
      simp only [List.mem_cons, not_or] at hm
      exact k3 r (op_owned h1 (Ne.symm hm.1) hr) hm.2

/-- What is told about an event of a link. -/
def told (ns : List Note) (e : Entry) : Prop :=
  (∃ w u was now, .call e.ref w u was e.file now ∈ ns) ∨ .idle e.ref e.file ∈ ns

def steadyE : List (Option Entry × Reaction) → Prop
  | [] => True
  | (_, r) :: rest => r.throws = false ∧ (∀ e ∈ rest.filterMap Prod.fst, e.ref.kind = .timer → .release e.ref ∉ r.ops) ∧ steadyE rest

theorem event_steady {s : Sys} {log : List Note} {e : Entry} (h : Inv s log) (ht : e.ref.kind = .timer → (s.slot e.ref).owner ≠ none) :
    ∃ s' ns, onEvent s e = some (s', ns) ∧ (∀ f, .lost f ∉ ns) ∧ (e.ref.kind = .link → told ns e) := by
  cases hk : e.ref.kind with
  | link =>
    simp only [onEvent, hk, onLink]
    refine ⟨_, _, rfl, ?_, fun _ => ?_⟩
    · intro f hf
      split at hf
      · simp at hf
      split at hf
      · simp at hf
      split at hf
      · simp at hf
      · rcases List.mem_append.1 hf with hf | hf
        · have := close_quiet _ _ _ hf
          unfold Sys.close at hf
          split at hf
          · simp at hf
          · split at hf <;> simp at hf
        · simp at hf
    · unfold told
      split
      · exact .inr (by simp)
      split
      · exact .inl ⟨_, _, _, _, by simp; exact ⟨rfl, rfl, rfl, rfl⟩⟩
      split
      · exact .inl ⟨_, _, _, _, by simp; exact ⟨rfl, rfl, rfl, rfl⟩⟩
      · exact .inl ⟨_, _, _, _, List.mem_append_right _ (List.mem_singleton.2 rfl)⟩
  | timer =>
    have ho := ht hk
    have hnum : (s.slot e.ref).num ≠ none := by
      have e' : e.ref = ⟨.timer, e.ref.idx⟩ := by rw [← hk]
      rw [e'] at ho ⊢
      exact h.timers _ ho
    cases hn : (s.slot e.ref).num with
    | none => exact absurd hn hnum
    | some n =>
      obtain ⟨f, f1, _⟩ := h.held e.ref n ho hn
      simp only [onEvent, hk, onTimer, hn, f1, reduceCtorEq, false_implies, and_true]
      split
      · exact ⟨_, _, rfl, by simp⟩
      · split <;> exact ⟨_, _, rfl, by simp⟩

theorem dispatch_steady {s s' : Sys} {log : List Note} {L : List (Option Entry × Reaction)} {ns : List Note} (h : Inv s log)
    (ho : ∀ x ∈ L, ∀ o ∈ x.2.ops, o.sound = true) (hs : dispatch s L = some (s', ns))
    (hE : ∀ e ∈ L.filterMap Prod.fst, e.ref.kind = .timer → (s.slot e.ref).owner ≠ none) (hc : steadyE L) :
    (∀ f, .lost f ∉ ns) ∧ ∀ e ∈ L.filterMap Prod.fst, e.ref.kind = .link → told ns e := by
  induction L generalizing s log ns with
  | nil =>
    injection hs with e
    injection e with e1 e2
    subst e2
    simp
  | cons x L ih =>
    obtain ⟨x, r⟩ := x
    obtain ⟨ht, hr, hc'⟩ := hc
    have rest : ∀ s log, Inv s log → (∀ e ∈ L.filterMap Prod.fst, e.ref.kind = .timer → (s.slot e.ref).owner ≠ none) →
        ∀ s1 o1, ops s r.ops = some (s1, o1) → ∀ o2, dispatch s1 L = some (s', o2) →
        (∀ f, .lost f ∉ o1 ++ o2) ∧ ∀ e ∈ L.filterMap Prod.fst, e.ref.kind = .link → told o2 e := by
      intro s log h hE s1 o1 h1 o2 h2
      obtain ⟨k1, k2, k3⟩ := ops_steady h (ho _ List.mem_cons_self) h1
      obtain ⟨l1, l2⟩ := ih k1 (fun y hy => ho y (by simp [hy])) h2 (fun e he hk => k3 _ (hE e he hk) (hr e he hk)) hc'
      refine ⟨?_, l2⟩
      intro f hf
      rcases List.mem_append.1 hf with hf | hf
      · exact k2 f hf
      · exact l1 f hf
    have later : ∀ {a b : List Note} {e : Entry}, told b e → told (a ++ b) e := by
      intro a b e h
      rcases h with ⟨w, u, was, now, h⟩ | h
      · exact .inl ⟨w, u, was, now, by simp [h]⟩
      · exact .inr (by simp [h])
    have sooner : ∀ {a b : List Note} {e : Entry}, told a e → told (a ++ b) e := by
      intro a b e h
      rcases h with ⟨w, u, was, now, h⟩ | h
      · exact .inl ⟨w, u, was, now, by simp [h]⟩
      · exact .inr (by simp [h])
    cases x with
    | none =>
      simp only [dispatch, Option.bind_eq_bind] at hs
      rw [Option.bind_eq_some_iff] at hs
      obtain ⟨⟨s1, o1⟩, h1, hs⟩ := hs
      simp only [ht, Bool.false_eq_true, if_false] at hs
      rw [Option.bind_eq_some_iff] at hs
      obtain ⟨⟨s2, o2⟩, h2, hs⟩ := hs
      injection hs with e
      injection e with e1 e2
      subst e1; subst e2
      obtain ⟨k1, k2⟩ := rest s log h hE s1 o1 h1 o2 h2
      exact ⟨k1, fun e he hk => later (k2 e he hk)⟩
    | some e =>
      obtain ⟨s0, o, he, c1, c2⟩ := event_steady h (hE e (by simp))
      simp only [dispatch, he] at hs
      rw [Option.bind_eq_bind, Option.bind_eq_some_iff] at hs
      obtain ⟨⟨s1, o1⟩, h1, hs⟩ := hs
      simp only [ht, Bool.false_eq_true, if_false] at hs
      rw [Option.bind_eq_some_iff] at hs
      obtain ⟨⟨s2, o2⟩, h2, hs⟩ := hs
      injection hs with e'
      injection e' with e1 e2
      subst e1; subst e2
      have k0 := inv_event h he
      obtain ⟨k1, k2⟩ := rest s0 _ k0 (fun x hx hk => by rw [(event_same he).1]; exact hE x (by simp [hx]) hk) s1 o1 h1 o2 h2
      refine ⟨?_, ?_⟩
      · intro f hf
        rcases List.mem_append.1 hf with hf | hf
        · exact c1 f hf
        · exact k1 f hf
      · intro x hx hk
        simp only [List.filterMap_cons, List.mem_cons] at hx
        rcases hx with hx | hx
        · subst hx
          exact sooner (c2 hk)
        · exact later (later (k2 x hx hk))

theorem fits_steady {s : Sys} : ∀ {b : List (Pick × Reaction)} {es : List (Option Entry)}, Fits s (b.map Prod.fst) es → steady s b →
    steadyE (es.zip (b.map Prod.snd))
  | [], es, _, _ => by simp [steadyE]
  | (p, r) :: b, [], h, _ => by cases p <;> exact h.elim
  | (p, r) :: b, e :: es, h, hc => by
    have hf : Fits s (b.map Prod.fst) es := by
      cases p <;> cases e
      · exact h.elim
      · exact h.2
      · exact h
      · exact h.elim
    refine ⟨hc.1, ?_, fits_steady hf hc.2.2⟩
    intro e' he' hk hm
    obtain ⟨x, hx, hx'⟩ := fits_target hf e' he'
    refine hc.2.1 _ hm e'.ref ?_ x hx hx'
    obtain ⟨⟨k, i⟩, _, _, _⟩ := e'
    simp only at hk
    subst hk
    rfl

theorem fits_pick {s : Sys} {n mask : Nat} {f : File} (hn : s.tab n = some f) : ∀ {b : List (Pick × Reaction)} {es : List (Option Entry)},
    Fits s (b.map Prod.fst) es → .fd n mask ∈ b.map Prod.fst → ∃ e ∈ (es.zip (b.map Prod.snd)).filterMap Prod.fst, e.ref = f.ref ∧ e.file = f.id
  | [], _, _, h => by simp at h
  | (p, r) :: b, [], h, _ => by cases p <;> exact h.elim
  | (.other, r) :: b, none :: es, h, hm => by
    simp only [List.map_cons, List.mem_cons, reduceCtorEq, false_or] at hm
    obtain ⟨e, he, he'⟩ := fits_pick hn (b := b) (es := es) h hm
    exact ⟨e, by simpa using he, he'⟩
  | (.fd m mask', r) :: b, some e' :: es, h, hm => by
    simp only [List.map_cons, List.mem_cons, Pick.fd.injEq] at hm
    rcases hm with ⟨e1, e2⟩ | hm
    · subst e1; subst e2
      obtain ⟨⟨g, h1, _, h2⟩, _⟩ := h
      rw [hn] at h1
      injection h1 with h1
      subst h1
      exact ⟨e', by simp, by rw [h2], by rw [h2]⟩
    · obtain ⟨e, he, he'⟩ := fits_pick hn (b := b) (es := es) h.2 hm
      refine ⟨e, ?_, he'⟩
      simp only [List.map_cons, List.zip_cons_cons, List.filterMap_cons, List.mem_cons]
      exact .inr he
  | (.other, _) :: _, some _ :: _, h, _ => h.elim
  | (.fd _ _, _) :: _, none :: _, h, _ => h.elim

/-- In a batch in which no handler throws or gives back a timer with an event still to come, nothing is forgotten: every event of a
link leads to a call, or the link has been given back. -/
theorem C63_no_loss_partial (bs : List (List (Pick × Reaction))) (b : List (Pick × Reaction)) (s s' : Sys) (log ns : List Note)
    (hb : sound (bs ++ [b])) (h : run init [] bs = some (s, log)) (ht : turn s b = some (s', ns)) (hc : steady s b) :
    (∀ f, .lost f ∉ ns) ∧ ∀ n mask f, .fd n mask ∈ b.map Prod.fst → s.tab n = some f → f.ref.kind = .link →
      (∃ w u was now, .call f.ref w u was f.id now ∈ ns) ∨ .idle f.ref f.id ∈ ns := by
  have hi : Inv s log := inv_run (fun x hx => hb x (by simp [hx])) h
  unfold turn at ht
  split at ht
  case isFalse => cases ht
  simp only [Option.bind_eq_bind, Option.bind_eq_some_iff] at ht
  obtain ⟨⟨s1, es⟩, h1, ht⟩ := ht
  obtain ⟨hf, hal⟩ := collect_fits h1
  have hi1 := inv_collect hi h1
  obtain ⟨k1, k2⟩ := dispatch_steady hi1 (by
    intro x hx o ho
    have := (List.of_mem_zip (a := x.1) (b := x.2) hx).2
    obtain ⟨y, hy, e⟩ := List.mem_map.1 this
    exact hb b (by simp) y hy o (by rw [e]; exact ho)) ht (by
    intro e he hk
    obtain ⟨n, f, h2, h3, h4, h5, h6⟩ := fits_entry hf e (zip_entry he)
    rw [hal.1, h4]
    exact (hi.watched n f h2 h3).2) (fits_steady hf hc)
  refine ⟨k1, ?_⟩
  intro n mask f hm hn hk
  obtain ⟨e, he, e1, e2⟩ := fits_pick hn hf hm
  have := k2 e he (by rw [e1]; exact hk)
  unfold told at this
  rw [e1, e2] at this
  exact this

/-! ## Examples and violations -/

/-- Two connections have data, the first handler closes its own link and opens a third. -/
def calmStart : List (List (Pick × Reaction)) :=
  [[(.other, ⟨[.link, .connect 0 7, .link, .connect 1 8, .timer 9 true, .edge 7, .edge 8, .expire 9], false⟩)]]

def calmBatch : List (Pick × Reaction) :=
  [(.fd 7 1, ⟨[.close 0, .link, .connect 2 7], false⟩), (.fd 9 1, ⟨[.release ⟨.timer, 0⟩], false⟩), (.fd 8 16, ⟨[.connect 1 9], false⟩)]

theorem calmStart_some : (run init [] calmStart).isSome = true := by decide +kernel

theorem calmBatch_some : (turn ((run init [] calmStart).get calmStart_some).1 calmBatch).isSome = true := by decide +kernel

example : ∃ s log s' ns, run init [] calmStart = some (s, log) ∧ turn s calmBatch = some (s', ns) ∧ calm s calmBatch ∧ steady s calmBatch ∧
    creates (calmBatch.map Prod.snd) ≤ (s.free .link).length ∧ ns =
    [.call ⟨.link, 0⟩ .data 0 (some 0) 0 (some 0), .closed ⟨.link, 0⟩ 0, .taken ⟨.link, 2⟩ 3, .opened ⟨.link, 2⟩ 3,
      .call ⟨.timer, 0⟩ .timeout 2 (some 2) 2 (some 2), .closed ⟨.timer, 0⟩ 2, .freed ⟨.timer, 0⟩ 2,
      .closed ⟨.link, 1⟩ 1, .call ⟨.link, 1⟩ .error 1 (some 1) 1 (some 1), .opened ⟨.link, 1⟩ 4] := by
  refine ⟨_, _, _, _, (Option.some_get calmStart_some).symm, (Option.some_get calmBatch_some).symm, ?_, ?_, ?_, ?_⟩
  · simp only [calm, calmBatch]
    decide +kernel
  · simp only [steady, calmBatch]
    decide +kernel
  · decide +kernel
  · decide +kernel

/-- The pool is empty.  The handler of one link releases another link that has an event in the same batch and creates a new one, which
is the same object: the new owner is told that data of the old connection has arrived. -/
theorem C63_stale_violated : ∃ bs log, (run init [] bs).map (·.2) = some log ∧ sound bs ∧
    Note.call ⟨.link, 1⟩ .data 32 (some 1) 1 none ∈ log ∧ ¬ ∀ a ∈ log, Meant a := by
  refine ⟨[[(.other, ⟨List.replicate 32 .link ++ [.connect 0 7, .connect 1 8, .edge 7, .edge 8], false⟩)],
    [(.fd 7 1, ⟨[.release ⟨.link, 1⟩, .link], false⟩), (.fd 8 1, ⟨[], false⟩)]],
    (List.range 32).map (fun i => .taken ⟨.link, i⟩ i) ++ [.opened ⟨.link, 0⟩ 0, .opened ⟨.link, 1⟩ 1,
      .call ⟨.link, 0⟩ .data 0 (some 0) 0 (some 0), .closed ⟨.link, 1⟩ 1, .freed ⟨.link, 1⟩ 1, .taken ⟨.link, 1⟩ 32,
      .call ⟨.link, 1⟩ .data 32 (some 1) 1 none], by decide +kernel, by unfold sound; decide +kernel, by decide +kernel, ?_⟩
  intro h
  have := h (.call ⟨.link, 1⟩ .data 32 (some 1) 1 none) (by decide +kernel) rfl
  revert this
  decide

/-- A handler closes another link and connects it again: the link is told that it is connected because of an event of the old
connection. -/
theorem C63_reopened_violated : ∃ bs log, (run init [] bs).map (·.2) = some log ∧ sound bs ∧
    Note.call ⟨.link, 1⟩ .connected 1 (some 1) 1 (some 2) ∈ log ∧ ¬ ∀ a ∈ log, Meant a := by
  refine ⟨[[(.other, ⟨[.link, .link, .connect 0 7, .connect 1 8, .edge 7, .edge 8], false⟩)],
    [(.fd 7 1, ⟨[.close 1, .connect 1 8], false⟩), (.fd 8 4, ⟨[], false⟩)]],
    [.taken ⟨.link, 0⟩ 0, .taken ⟨.link, 1⟩ 1, .opened ⟨.link, 0⟩ 0, .opened ⟨.link, 1⟩ 1,
      .call ⟨.link, 0⟩ .data 0 (some 0) 0 (some 0), .closed ⟨.link, 1⟩ 1, .opened ⟨.link, 1⟩ 2,
      .call ⟨.link, 1⟩ .connected 1 (some 1) 1 (some 2)], by decide +kernel, by unfold sound; decide +kernel, by decide +kernel, ?_⟩
  intro h
  have := h (.call ⟨.link, 1⟩ .connected 1 (some 1) 1 (some 2)) (by decide +kernel) rfl
  revert this
  decide

/-- No handler throws, but one of them releases a timer that has expired as well: reading the released timer throws, and the event of
a third connection is forgotten. -/
theorem C63_released_timer_violated : ∃ bs log, (run init [] bs).map (·.2) = some log ∧ fine bs ∧
    (∀ b ∈ bs, ∀ x ∈ b, x.2.throws = false) ∧ Note.lost 2 ∈ log :=
  ⟨[[(.other, ⟨[.link, .link, .connect 0 7, .timer 8 true, .connect 1 9, .edge 7, .edge 9, .expire 8], false⟩)],
    [(.fd 7 1, ⟨[.release ⟨.timer, 0⟩], false⟩), (.fd 8 1, ⟨[], false⟩), (.fd 9 1, ⟨[], false⟩)]],
    [.taken ⟨.link, 0⟩ 0, .taken ⟨.link, 1⟩ 1, .opened ⟨.link, 0⟩ 0, .opened ⟨.timer, 0⟩ 1, .taken ⟨.timer, 0⟩ 2, .opened ⟨.link, 1⟩ 2,
      .expired 1, .call ⟨.link, 0⟩ .data 0 (some 0) 0 (some 0), .closed ⟨.timer, 0⟩ 1, .freed ⟨.timer, 0⟩ 2, .lost 1, .lost 2],
    by decide +kernel, by unfold fine; decide +kernel, by decide +kernel, by decide +kernel⟩

/-- A connection that is ready for reading and for writing at the same time (EPOLLIN and EPOLLOUT) is closed as if it had failed. -/
theorem C63_both_ready_violated : ∃ bs log, (run init [] bs).map (·.2) = some log ∧ fine bs ∧ bs.getLast? = some [(.fd 7 5, ⟨[], false⟩)] ∧
    Note.closed ⟨.link, 0⟩ 0 ∈ log ∧ Note.call ⟨.link, 0⟩ .error 0 (some 0) 0 (some 0) ∈ log :=
  ⟨[[(.other, ⟨[.link, .connect 0 7, .edge 7], false⟩)], [(.fd 7 5, ⟨[], false⟩)]],
    [.taken ⟨.link, 0⟩ 0, .opened ⟨.link, 0⟩ 0, .closed ⟨.link, 0⟩ 0, .call ⟨.link, 0⟩ .error 0 (some 0) 0 (some 0)],
    by decide +kernel, by unfold fine; decide +kernel, by decide +kernel, by decide +kernel, by decide +kernel⟩

end Uscada.Dispatch
