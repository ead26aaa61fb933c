import Verif.StateExec
import Verif.UaPool
/-!
# A component that owns a pool of state machines

`UaSecureChannel` and `UaSessionService` keep 32 state machines in a `UaEntityPool` and are their `ReleaserInterface`.
Both are one state here, because a state machine that ends gives its identifier back.  `objs` is read at the
identifiers 1 to 32 only.
-/

namespace Uscada.Ua

open SM

/-- The member `UaEntityPool` with its objects. -/
structure Ent (β : Type) where
  ids : Queue Nat
  objs : Nat → β

namespace Ent

variable {α β : Type}

/-- UaEntityPool.hpp:20-31. -/
def create (mk : Nat → β) : Exec (Ent β) := do
  let ids ← Pool.create
  pure { ids, objs := mk }

/-- Change object `k`. -/
def set (s : Ent β) (k : Nat) (t : β) : Ent β := { s with objs := fun i => if i = k then t else s.objs i }

/-- member functions of object `k` -/
def obj (k : Nat) (f : β → β) : SM (Ent β) Unit := modify fun s => s.set k (f (s.objs k))

def self (k : Nat) : SM (Ent β) β := fun s => (.ok (s.objs k), s)

/-- UaEntityPool.hpp:35-45. -/
def allocId : SM (Ent β) (Option Nat) := fun s =>
  match Pool.alloc s.ids with
  | .ok (r, q) => (.ok r, { s with ids := q })
  | .throws => (.throws, s)
  | .abort => (.abort, s)
  | .ub => (.ub, s)

/-- UaEntityPool.hpp:47-51. -/
def releaseId (k : Nat) : SM (Ent β) Unit := fun s =>
  match Pool.release s.ids k with
  | .ok q => (.ok (), { s with ids := q })
  | .throws => (.throws, s)
  | .abort => (.abort, s)
  | .ub => (.ub, s)

/-- UaEntityPool.hpp:53-56: the identifier is not checked. -/
def get (k : Nat) (m : SM (Ent β) α) : SM (Ent β) α := if Pool.valid k then m else undefined

/-! ## Reasoning -/

/-- Free objects satisfy `I`, objects in use satisfy `B`. -/
def Good (I B : Nat → β → Prop) (l : List Nat) (k : Nat) (t : β) : Prop := (k ∈ l → I k t) ∧ (k ∉ l → B k t)

def Inv (I B : Nat → β → Prop) (s : Ent β) : Prop := ∃ l, Pool.Free s.ids l ∧ ∀ k, Pool.valid k → Good I B l k (s.objs k)

/-- Object `k` is in use and satisfies `P`; the others are in order. -/
def Around (I B : Nat → β → Prop) (k : Nat) (P : β → Prop) (s : Ent β) : Prop := ∃ l, Pool.Free s.ids l ∧ Pool.valid k ∧
  k ∉ l ∧ (∀ j, Pool.valid j → j ≠ k → Good I B l j (s.objs j)) ∧ P (s.objs k)

variable {I B : Nat → β → Prop} {k : Nat} {T : Ent β → Prop}

theorem Around.mono {P Q : β → Prop} {s : Ent β} (h : Around I B k P s) (hpq : ∀ t, P t → Q t) : Around I B k Q s := by
  obtain ⟨l, h1, h2, h3, h4, h5⟩ := h
  exact ⟨l, h1, h2, h3, h4, hpq _ h5⟩

theorem Around.inv {s : Ent β} (h : Around I B k (B k) s) : s.Inv I B := by
  obtain ⟨l, h1, h2, h3, h4, h5⟩ := h
  refine ⟨l, h1, fun j hj => ?_⟩
  by_cases e : j = k
  · subst e; exact ⟨fun h => absurd h h3, fun _ => h5⟩
  · exact h4 j hj e

theorem Around.set {P Q : β → Prop} {s : Ent β} (h : Around I B k P s) {t : β} (ht : Q t) : Around I B k Q (s.set k t) := by
  obtain ⟨l, h1, h2, h3, h4, h5⟩ := h
  refine ⟨l, h1, h2, h3, fun j hj hne => ?_, ?_⟩
  · simp only [Ent.set, if_neg hne]
    exact h4 j hj hne
  · simp only [Ent.set, if_pos]
    exact ht

theorem Around.at {P : β → Prop} {s : Ent β} (h : Around I B k P s) : P (s.objs k) := by
  obtain ⟨l, h1, h2, h3, h4, h5⟩ := h
  exact h5

/-- Either in use or free. -/
theorem Inv.around {s : Ent β} (h : s.Inv I B) (hk : Pool.valid k) :
    Around I B k (B k) s ∨ (∃ l, Pool.Free s.ids l ∧ k ∈ l ∧ ∀ j, Pool.valid j → Good I B l j (s.objs j)) := by
  obtain ⟨l, h1, h2⟩ := h
  by_cases hm : k ∈ l
  · exact .inr ⟨l, h1, hm, h2⟩
  · exact .inl ⟨l, h1, hk, hm, fun j hj _ => h2 j hj, (h2 k hk).2 hm⟩

theorem Inv.set_idle {s : Ent β} {l : List Nat} (h1 : Pool.Free s.ids l) (hm : k ∈ l)
    (h2 : ∀ j, Pool.valid j → Good I B l j (s.objs j)) {t : β} (ht : I k t) : (s.set k t).Inv I B := by
  refine ⟨l, h1, fun j hj => ?_⟩
  by_cases e : j = k
  · subst e
    simp only [Ent.set, if_pos]
    exact ⟨fun _ => ht, fun hn => absurd hm hn⟩
  · simp only [Ent.set, if_neg e]
    exact h2 j hj

@[simp] theorem set_at (s : Ent β) (k : Nat) (t : β) : (s.set k t).objs k = t := by simp [Ent.set]

theorem set_other (s : Ent β) {k j : Nat} (t : β) (h : j ≠ k) : (s.set k t).objs j = s.objs j := by simp [Ent.set, h]

@[simp] theorem set_set (s : Ent β) (k : Nat) (t u : β) : (s.set k t).set k u = s.set k u := by
  simp only [Ent.set]
  congr 1
  funext i
  by_cases e : i = k <;> simp [e]

@[simp] theorem obj_run (s : Ent β) (k : Nat) (f : β → β) : obj k f s = (.ok (), s.set k (f (s.objs k))) := rfl

@[simp] theorem self_run (s : Ent β) (k : Nat) : self k s = (.ok (s.objs k), s) := rfl

theorem tri_obj {P Q : β → Prop} {f : β → β} (h : ∀ t, P t → Q (f t)) :
    STri T (Around I B k P) (obj k f) (fun _ => Around I B k Q) :=
  STri.modify fun _ hs => hs.set (h _ hs.at)

theorem tri_self {P : β → Prop} {f : β → SM (Ent β) α} {Q : α → Ent β → Prop}
    (h : ∀ t, P t → STri T (Around I B k (· = t)) (f t) Q) : STri T (Around I B k P) (self k >>= f) Q := by
  rintro s ⟨l, h1, h2, h3, h4, h5⟩
  exact h _ h5 s ⟨l, h1, h2, h3, h4, rfl⟩

theorem tri_ret {P Q : β → Prop} {a : α} (h : ∀ t, P t → Q t) :
    STri T (Around I B k P) (pure a : SM (Ent β) α) (fun _ => Around I B k Q) := STri.ret fun _ hs => hs.mono h

theorem tri_pre {P P' : β → Prop} {m : SM (Ent β) α} {Q : α → Ent β → Prop} (h : STri T (Around I B k P) m Q)
    (hp : ∀ t, P' t → P t) : STri T (Around I B k P') m Q := h.weaken (fun _ hc => hc.mono hp) (fun _ _ h => h)

theorem tri_point {P : β → Prop} {m : SM (Ent β) α} {Q : α → Ent β → Prop}
    (h : ∀ t, P t → STri T (Around I B k (· = t)) m Q) : STri T (Around I B k P) m Q := by
  rintro s ⟨l, h1, h2, h3, h4, h5⟩
  exact h _ h5 s ⟨l, h1, h2, h3, h4, rfl⟩

/-- A computation that leaves the state alone; after an exception the object is in order. -/
theorem tri_lift {e : Exec α} {P : β → Prop} {Q : α → β → Prop} (hq : ∀ a t, e = .ok a → P t → Q a t)
    (ht : ∀ t, P t → B k t) : STri (Inv I B) (Around I B k P) (lift e) (fun a => Around I B k (Q a)) :=
  STri.lift (fun _ _ he hs => hs.mono fun t h => hq _ t he h) (fun _ _ hs => (hs.mono ht).inv)

/-- Giving the identifier back. -/
theorem releaseId_run {P : β → Prop} {s : Ent β} (h : Around I B k P s) : ∃ q, Pool.release s.ids k = .ok q ∧
    releaseId k s = (.ok (), { s with ids := q }) := by
  obtain ⟨l, h1, h2, h3, h4, h5⟩ := h
  obtain ⟨q, hq, _⟩ := h1.release h2 h3
  exact ⟨q, hq, by simp only [releaseId, hq]⟩

theorem release_len {P : β → Prop} {s : Ent β} (h : Around I B k P s) {q : Queue Nat} (hq : Pool.release s.ids k = .ok q) : q.len = s.ids.len + 1 := by
  obtain ⟨l, h1, h2, h3, h4, h5⟩ := h
  obtain ⟨q', hq', hf⟩ := h1.release h2 h3
  rw [hq] at hq'
  injection hq' with hq'
  rw [hq', hf.holds.hlen, h1.holds.hlen, List.length_append]
  rfl

theorem tri_release {P : β → Prop} (h : ∀ t, P t → I k t) : STri T (Around I B k P) (releaseId k) (fun _ => Inv I B) := by
  rintro s ⟨l, h1, h2, h3, h4, h5⟩
  obtain ⟨q, hq, hf⟩ := h1.release h2 h3
  simp only [releaseId, hq]
  refine ⟨_, hf, fun j hj => ?_⟩
  by_cases e : j = k
  · subst e
    exact ⟨fun _ => h _ h5, fun hn => absurd (by simp) hn⟩
  · refine ⟨fun hm => (h4 j hj e).1 ?_, fun hn => (h4 j hj e).2 fun hm => hn (by simp [hm])⟩
    simpa [e] using hm

/-- Taking a free identifier. -/
theorem tri_alloc {m : Nat → SM (Ent β) Unit} {n : SM (Ent β) Unit}
    (hs : ∀ k, STri T (Around I B k (I k)) (m k) (fun _ => Inv I B)) (hn : STri T (Inv I B) n (fun _ => Inv I B)) :
    STri T (Inv I B) (allocId >>= fun r => match r with | none => n | some k => m k) (fun _ => Inv I B) := by
  rintro s ⟨l, h1, h2⟩
  cases l with
  | nil =>
    have : allocId s = (.ok none, s) := by simp only [allocId, h1.alloc_nil]
    rw [bind_run, this]
    exact hn s ⟨[], h1, h2⟩
  | cons k l =>
    obtain ⟨q, hq, hf⟩ := h1.alloc_cons
    have : allocId s = (.ok (some k), { s with ids := q }) := by simp only [allocId, hq]
    rw [bind_run, this]
    have hk := h1.ids k (by simp)
    have hnd := List.nodup_cons.1 h1.nodup
    refine hs k _ ⟨l, hf, hk, hnd.1, fun j hj e => ?_, (h2 k hk).1 (by simp)⟩
    exact ⟨fun hm => (h2 j hj).1 (by simp [hm]), fun hm => (h2 j hj).2 (by simp [hm, e])⟩

theorem alloc_run {s : Ent β} {k : Nat} {l : List Nat} (h1 : Pool.Free s.ids (k :: l)) : ∃ q, Pool.Free q l ∧
    allocId s = (.ok (some k), { s with ids := q }) := by
  obtain ⟨q, hq, hf⟩ := h1.alloc_cons
  exact ⟨q, hf, by simp only [allocId, hq]⟩

theorem create_inv {mk : Nat → β} {s : Ent β} (h : create mk = .ok s) (hi : ∀ k, Pool.valid k → I k (mk k)) :
    s.Inv I B ∧ Pool.Free s.ids (List.range' 1 poolCap) ∧ s.objs = mk := by
  obtain ⟨q, hq, hf⟩ := Pool.free_create
  obtain ⟨q', h1, h2⟩ := Exec.bind_eq_ok.mp h
  rw [hq] at h1
  injection h1 with h1
  injection h2 with h2
  subst h1 h2
  refine ⟨⟨_, hf, fun k hk => ⟨fun _ => hi k hk, fun hn => absurd ?_ hn⟩⟩, hf, rfl⟩
  obtain ⟨hk1, hk2⟩ := hk
  simp only [List.mem_range'_1]
  omega

end Ent

end Uscada.Ua
