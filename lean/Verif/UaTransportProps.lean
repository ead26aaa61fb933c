import Verif.UaTransport
import Verif.UaConnectionProps
/-!
# C35, C36, C46 for the transport layer

`Around k P s`: the identifiers of `s` are in order, connection `k` is in use, all other connections are in order, and
connection `k` satisfies `P`.  Handlers of connection `k` are followed through `Around k (· = t)`.
-/

namespace Uscada.Ua.Transport

open SM
open Modbus (Rx)

/-! ## Specification -/

/-- The channel a connection belongs to after the acts of its log: the one assigned last, until the connection ends. -/
def owner : List TAct → Option UInt32
  | [] => none
  | l => l.foldl (fun o a => match a with
    | .assigned c => some c
    | .released => none
    | _ => o) none

/-- C35: what a connection may do while it belongs to `o`. -/
def Owned (o : Option UInt32) : TAct → Prop
  | .up (.message c _ _) => o = some c
  | .up (.close c _ _) => o = some c
  | .up (.released c) => o = some c
  | .sent bytes => match o with
    | none => bytes = ackFrame
    | some c => (bytes.drop 8).take 4 = leBytes 4 c.toNat
  | _ => True

/-- C36: the life of a connection as seen by the server and the secure channel component. -/
inductive Life where
  /-- the identifier is not in use by a served link -/
  | idle
  /-- serving; the channel it belongs to -/
  | live (o : Option UInt32)
  /-- its channel was told about the end -/
  | told
  /-- the secure channel component asked for the end -/
  | asked
deriving DecidableEq, Repr

/-- The acts allowed in each phase: a connection without channel just ends; one with a channel ends after telling that
channel once or after having been asked; nothing else happens between telling (or being asked) and giving back the
identifier; the identifier is given back once per accepted link. -/
def Life.next : Life → TAct → Option Life
  | .idle, .accepted => some (.live none)
  | .live o, .sent _ => some (.live o)
  | .live o, .up (.open _ _ _) => some (.live o)
  | .live o, .up (.message _ _ _) => some (.live o)
  | .live o, .up (.close _ _ _) => some (.live o)
  | .live (some _), .up (.released _) => some .told
  | .live _, .assigned c => some (.live (some c))
  | .live _, .asked => some .asked
  | .live none, .released => some .idle
  | .told, .released => some .idle
  | .asked, .released => some .idle
  | _, _ => none

def Life.run : Life → List TAct → Option Life
  | p, [] => some p
  | p, a :: l => match p.next a with
    | some q => q.run l
    | none => none

theorem Life.run_append (p : Life) (l : List TAct) (l' : List TAct) :
    p.run (l ++ l') = (p.run l).bind (·.run l') := by
  induction l generalizing p with
  | nil => rfl
  | cons a l ih =>
    simp only [List.cons_append, Life.run]
    cases p.next a with
    | none => rfl
    | some q => exact ih q

theorem owner_append (l : List TAct) (a : TAct) : owner (l ++ [a]) = match a with
    | .assigned c => some c
    | .released => none
    | _ => owner l := by
  cases l with
  | nil => cases a <;> rfl
  | cons b l => simp only [List.cons_append, owner, List.foldl_cons, List.foldl_append, List.foldl_nil]

/-- Every act of the log was allowed when it happened. -/
def AllOwned (l : List TAct) : Prop := ∀ pre a post, l = pre ++ a :: post → Owned (owner pre) a

theorem AllOwned.nil : AllOwned [] := by
  intro pre a post h
  simp at h

theorem AllOwned.snoc {l : List TAct} {a : TAct} (h : AllOwned l) (ha : Owned (owner l) a) : AllOwned (l ++ [a]) := by
  intro pre b post e
  rcases List.eq_nil_or_concat post with hp | ⟨post', c, hp⟩
  · subst hp
    have := List.append_inj' e (by simp)
    obtain ⟨e1, e2⟩ := this
    injection e2 with e2 _
    rw [← e1, ← e2]
    exact ha
  · subst hp
    apply h pre b post'
    rw [List.concat_eq_append, ← List.cons_append, ← List.append_assoc] at e
    exact (List.append_inj' e (by simp)).1

/-! ## Invariant -/

/-- The log of a connection is in order and the connection is in phase `p`, belonging to `o`. -/
structure Logged (t : Tcp) (p : Life) (o : Option UInt32) : Prop where
  life : Life.run .idle t.log = some p
  own : AllOwned t.log
  owner : owner t.log = o

/-- A connection whose identifier is free. -/
structure Idle (t : Tcp) : Prop where
  st : t.st = .init
  link : t.link = false
  timer : t.timer = false
  armed : t.armed = false
  assoc : t.assoc = none
  logged : Logged t .idle none

/-- A connection that serves a link. -/
structure Live (A : Prop) (t : Tcp) : Prop where
  st : t.st ≠ .init
  link : t.link = true
  timer : t.timer = true
  hello : t.st = .hello → t.assoc = none
  armed : A → t.armed = true
  logged : Logged t (.live t.assoc) t.assoc

/-- A connection whose identifier was lost: no timer was left when its link was accepted. -/
structure Lost (t : Tcp) : Prop where
  st : t.st = .init
  link : t.link = true
  timer : t.timer = false
  armed : t.armed = false
  assoc : t.assoc = none
  logged : Logged t .idle none

def Busy (L A : Prop) (t : Tcp) : Prop := Live A t ∨ (L ∧ Lost t)

def Good (L A : Prop) (l : List Nat) (k : Nat) (t : Tcp) : Prop := (k ∈ l → Idle t) ∧ (k ∉ l → Busy L A t)

def _root_.Uscada.Ua.Srv.Inv (L A : Prop) (s : Srv) : Prop := ∃ l, Pool.Free s.ids l ∧
  ∀ k, Pool.valid k → Good L A l k (s.conns k)

def Around (L A : Prop) (k : Nat) (P : Tcp → Prop) (s : Srv) : Prop := ∃ l, Pool.Free s.ids l ∧ Pool.valid k ∧ k ∉ l ∧
  (∀ j, Pool.valid j → j ≠ k → Good L A l j (s.conns j)) ∧ P (s.conns k)

variable {L A : Prop}

theorem Around.mono {k : Nat} {P Q : Tcp → Prop} {s : Srv} (h : Around L A k P s) (hpq : ∀ t, P t → Q t) : Around L A k Q s := by
  obtain ⟨l, h1, h2, h3, h4, h5⟩ := h
  exact ⟨l, h1, h2, h3, h4, hpq _ h5⟩

theorem Around.inv {k : Nat} {s : Srv} (h : Around L A k (Busy L A) s) : s.Inv L A := by
  obtain ⟨l, h1, h2, h3, h4, h5⟩ := h
  refine ⟨l, h1, fun j hj => ?_⟩
  by_cases e : j = k
  · subst e; exact ⟨fun h => absurd h h3, fun _ => h5⟩
  · exact h4 j hj e

section rules

variable {k : Nat} {α : Type} {T : Srv → Prop}

theorem tri_conn {P Q : Tcp → Prop} {f : Tcp → Tcp} (h : ∀ t, P t → Q (f t)) :
    STri T (Around L A k P) (conn k f) (fun _ => Around L A k Q) := by
  apply STri.modify
  rintro s ⟨l, h1, h2, h3, h4, h5⟩
  refine ⟨l, h1, h2, h3, ?_, ?_⟩
  · intro j hj hne
    simp only [Srv.set, if_neg hne]
    exact h4 j hj hne
  · simp only [Srv.set, if_pos]
    exact h _ h5

theorem tri_self {P : Tcp → Prop} {f : Tcp → SM Srv α} {Q : α → Srv → Prop}
    (h : ∀ t, P t → STri T (Around L A k (· = t)) (f t) Q) : STri T (Around L A k P) (self k >>= f) Q := by
  rintro s ⟨l, h1, h2, h3, h4, h5⟩
  exact h _ h5 s ⟨l, h1, h2, h3, h4, rfl⟩

theorem tri_note {P Q : Tcp → Prop} {a : TAct} (h : ∀ t, P t → Q { t with log := t.log ++ [a] }) :
    STri T (Around L A k P) (note k a) (fun _ => Around L A k Q) := tri_conn h

theorem tri_ret {P Q : Tcp → Prop} {a : α} (h : ∀ t, P t → Q t) :
    STri T (Around L A k P) (pure a : SM Srv α) (fun _ => Around L A k Q) := STri.ret fun _ hs => hs.mono h

theorem tri_pre {P P' : Tcp → Prop} {m : SM Srv α} {Q : α → Srv → Prop} (h : STri T (Around L A k P) m Q)
    (hp : ∀ t, P' t → P t) : STri T (Around L A k P') m Q := h.weaken (fun _ hc => hc.mono hp) (fun _ _ h => h)

theorem tri_point {P : Tcp → Prop} {m : SM Srv α} {Q : α → Srv → Prop}
    (h : ∀ t, P t → STri T (Around L A k (· = t)) m Q) : STri T (Around L A k P) m Q := by
  rintro s ⟨l, h1, h2, h3, h4, h5⟩
  exact h _ h5 s ⟨l, h1, h2, h3, h4, rfl⟩

theorem tri_lift_ok {β : Type} {P : Srv → Prop} {a : β} {f : β → SM Srv α} {Q : α → Srv → Prop} (h : STri T P (f a) Q) :
    STri T P (lift (.ok a) >>= f) Q := h

end rules

theorem Logged.snoc {t : Tcp} {p q : Life} {o : Option UInt32} {a : TAct} (h : Logged t p o) (hn : p.next a = some q)
    (ho : Owned o a) : Life.run .idle (t.log ++ [a]) = some q ∧ AllOwned (t.log ++ [a]) := by
  refine ⟨?_, h.own.snoc (by rw [h.owner]; exact ho)⟩
  rw [Life.run_append, h.life]
  simp [Life.run, hn]

/-- An act that changes neither the phase nor the owner. -/
theorem Live.note {t : Tcp} {a : TAct} (h : Live A t) (hn : (Life.live t.assoc).next a = some (.live t.assoc))
    (ho : Owned t.assoc a) (hk : Transport.owner (t.log ++ [a]) = Transport.owner t.log) : Live A { t with log := t.log ++ [a] } where
  st := h.st
  link := h.link
  timer := h.timer
  hello := h.hello
  armed := h.armed
  logged := ⟨(h.logged.snoc hn ho).1, (h.logged.snoc hn ho).2, hk.trans h.logged.owner⟩

/-- The invariant survives the exceptions of the handlers. -/
abbrev STriI (L A : Prop) {α : Type} (P : Srv → Prop) (m : SM Srv α) (Q : α → Srv → Prop) : Prop := STri (Srv.Inv L A) P m Q

theorem live_inv {k : Nat} {P : Tcp → Prop} {s : Srv} (h : Around L A k P s) (hp : ∀ t, P t → Live A t) : s.Inv L A :=
  (h.mono fun t ht => Or.inl (hp t ht)).inv

/-! ## Ending -/

/-- The end of a connection: from a serving state whose log allows the identifier to be given back. -/
structure Ending (t : Tcp) : Prop where
  st : t.st ≠ .init
  timer : t.timer = true
  logged : ∃ p o, Logged t p o ∧ p.next .released = some .idle

/-- A connection after its end. -/
def ended (t : Tcp) : Tcp := { t with
  st := .init, assoc := none, link := false, opened := false, timer := false, armed := false, log := t.log ++ [.released] }

theorem toInit_run {k : Nat} {s : Srv} (hs : Around L A k Ending s) : ∃ q, Pool.release s.ids k = .ok q ∧ toInit k s =
    (.ok (), { ids := q, conns := fun i => if i = k then ended (s.conns k) else s.conns i }) := by
  obtain ⟨l, h1, h2, h3, h4, h5⟩ := hs
  obtain ⟨q, hq, hfree⟩ := h1.release h2 h3
  refine ⟨q, hq, ?_⟩
  have hst := h5.st
  have htm := h5.timer
  have hexit : ∀ st, st = (s.conns k).st → exit k st s = (.ok (), s.set k { (s.conns k) with armed := false }) := by
    intro st e
    cases st with
    | init => exact absurd e.symm hst
    | hello => simp only [exit, stopTimer, bind_run, self, andThen]; rw [if_pos htm]; rfl
    | connected => simp only [exit, stopTimer, bind_run, self, andThen]; rw [if_pos htm]; rfl
  unfold toInit transit
  simp only [bind_run, self, andThen]
  rw [if_neg hst]
  simp only [bind_run, hexit _ rfl, andThen, conn, SM.modify, release, note, releaseId, Srv.set, hq, if_true]
  congr 2
  funext i
  by_cases e : i = k
  · simp [e, ended]
  · simp [e]

theorem tri_toInit {k : Nat} : STriI L A (Around L A k Ending) (toInit k) (fun _ => Srv.Inv L A) := by
  intro s hs
  obtain ⟨q, hq, hrun⟩ := toInit_run hs
  rw [hrun]
  obtain ⟨l, h1, h2, h3, h4, h5⟩ := hs
  obtain ⟨p, o, hlog, hnext⟩ := h5.logged
  obtain ⟨q', hq', hfree⟩ := h1.release h2 h3
  rw [hq] at hq'
  injection hq' with hq'
  subst hq'
  refine ⟨l ++ [k], hfree, fun j hj => ?_⟩
  by_cases e : j = k
  · subst e
    simp only [if_pos]
    refine ⟨fun _ => ?_, fun h => absurd (List.mem_append_right l (List.mem_singleton.2 rfl)) h⟩
    have hs := hlog.snoc hnext trivial
    exact ⟨rfl, rfl, rfl, rfl, rfl, hs.1, hs.2, owner_append _ _⟩
  · simp only [if_neg e]
    have hg := h4 j hj e
    refine ⟨fun hm => hg.1 ?_, fun hm => hg.2 ?_⟩
    · rcases List.mem_append.1 hm with h | h
      · exact h
      · exact absurd (List.mem_singleton.1 h) e
    · exact fun h => hm (List.mem_append_left _ h)

/-- a connection with its channel told, or without channel -/
theorem ending_of_live {t : Tcp} (h : Live A t) (hn : t.assoc = none) : Ending t :=
  ⟨h.st, h.timer, _, _, h.logged, by rw [hn]; rfl⟩

theorem ending_told {t : Tcp} {c : UInt32} (h : Live A t) (hc : t.assoc = some c) :
    Ending { t with log := t.log ++ [.up (.released c)] } := by
  have hl := h.logged
  rw [hc] at hl
  have hs := hl.snoc (a := .up (.released c)) (q := .told) rfl rfl
  exact ⟨h.st, h.timer, .told, some c, ⟨hs.1, hs.2, by rw [owner_append]; exact hl.owner⟩, rfl⟩

theorem ending_asked {t : Tcp} (h : Live A t) : Ending { t with log := t.log ++ [.asked] } := by
  have hs := h.logged.snoc (a := .asked) (q := .asked) (by cases t.assoc <;> rfl) trivial
  exact ⟨h.st, h.timer, .asked, t.assoc, ⟨hs.1, hs.2, by rw [owner_append]; exact h.logged.owner⟩, rfl⟩

theorem tri_fail {B : Prop} {k : Nat} : STriI L A (Around L A k (Live B)) (fail k) (fun _ => Srv.Inv L A) := by
  unfold fail
  refine STri.bind (R := fun _ => Around L A k Ending) ?_ fun _ => tri_toInit
  unfold sendReleaseInd
  apply tri_self
  intro t ht
  match ha : t.assoc with
  | none => exact tri_ret fun t' e => e ▸ ending_of_live ht ha
  | some c => exact tri_note fun t' e => e ▸ ending_told ht ha

/-! ## Sending and receiving -/

theorem tri_linkSend {k : Nat} {e : TEnv} {bytes : List UInt8} {t : Tcp} (ht : Live A t) (ho : Owned t.assoc (.sent bytes)) :
    STriI L A (Around L A k (· = t)) (linkSend k e bytes)
      (fun _ => Around L A k fun t' => Live A t' ∧ t'.st = t.st ∧ t'.assoc = t.assoc) := by
  unfold linkSend
  apply tri_self
  rintro t' rfl
  rw [if_pos ht.link]
  split
  · refine STri.bind (R := fun _ => Around L A k fun t'' => Live A t'' ∧ t''.st = t'.st ∧ t''.assoc = t'.assoc) ?_ ?_
    · apply tri_note
      rintro t'' rfl
      refine ⟨ht.note ?_ ho ?_, rfl, rfl⟩
      · cases t''.assoc <;> rfl
      · rw [owner_append]
    · intro _
      exact tri_ret fun _ h => h
  · exact tri_ret fun t'' e => ⟨e ▸ ht, by rw [e], by rw [e]⟩

theorem drop_take_channel (a b c chunk : UInt8) (n : Nat) (channel : UInt32) (data : List UInt8) :
    ((([a, b, c, chunk] ++ leBytes 4 n ++ leBytes 4 channel.toNat ++ data : List UInt8)).drop 8).take 4 =
      leBytes 4 channel.toNat := rfl

theorem tri_sendSecured {k : Nat} {e : TEnv} {a b c chunk : UInt8} {channel : UInt32} {data : List UInt8} {t : Tcp}
    (ht : Live A t) (ho : t.assoc = some channel) : STriI L A (Around L A k (· = t)) (sendSecured k e a b c chunk channel data)
      (fun _ => Around L A k fun t' => Live A t' ∧ t'.st = t.st ∧ t'.assoc = t.assoc) := by
  unfold sendSecured
  by_cases hd : data.length ≤ 4084
  · rw [C45_secured garbage a b c chunk channel data hd]
    refine STri.bind (R := fun f => fun s => f = _ ∧ Around L A k (· = t) s)
      (STri.lift (fun f s hf hs => ⟨(Exec.ok.inj hf).symm, hs⟩) (fun _ h => by cases h)) ?_
    intro f s hs
    obtain ⟨hf, hs⟩ := hs
    refine tri_linkSend ht ?_ s hs
    rw [ho, hf]
    exact drop_take_channel ..
  · rw [C45_secured_overflow garbage a b c chunk channel data (by omega)]
    intro s hs
    exact trivial

theorem tri_answered {k : Nat} {r : Res} : STriI L A (Around L A k (Live A)) (answered k r) (fun _ => Srv.Inv L A) := by
  cases r with
  | done => exact STri.ret fun s hs => live_inv hs fun _ h => h
  | noerror => exact tri_fail
  | error => exact tri_fail

theorem Live.assign {t : Tcp} (h : Live A t) (hc : t.st = .connected) (c : UInt32) :
    Live A { t with assoc := some c, log := t.log ++ [.assigned c] } where
  st := h.st
  link := h.link
  timer := h.timer
  hello := fun e => by rw [hc] at e; cases e
  armed := h.armed
  logged := by
    have hs := h.logged.snoc (a := .assigned c) (q := .live (some c)) (by cases t.assoc <;> rfl) trivial
    exact ⟨hs.1, hs.2, owner_append _ _⟩

theorem tri_onReceive {k : Nat} {e : TEnv} {m : Down} : STriI L A (Around L A k (Busy L A)) (onReceive k e m) (fun _ => Srv.Inv L A) := by
  unfold onReceive
  apply tri_self
  intro t ht
  match hst : t.st with
  | .init => exact STri.ret fun s hs => (hs.mono fun _ e => e ▸ ht).inv
  | .hello => exact STri.ret fun s hs => (hs.mono fun _ e => e ▸ ht).inv
  | .connected =>
    have hl : Live A t := by
      rcases ht with h | h
      · exact h
      · rw [h.2.st] at hst; cases hst
    cases m with
    | openRsp c f d =>
      refine STri.bind (R := fun _ => Around L A k (Live A)) ?_ fun _ => tri_answered
      unfold receiveOpenRsp
      refine STri.bind (R := fun _ => Around L A k (· = { t with assoc := some c })) (tri_conn fun t' e => by rw [e]) fun _ => ?_
      refine STri.bind (R := fun _ => Around L A k (· = { t with assoc := some c, log := t.log ++ [.assigned c] }))
        (tri_note fun t' e => by rw [e]) fun _ => ?_
      exact (tri_sendSecured (hl.assign hst c) rfl).weaken (fun _ h => h) fun _ _ h => h.mono fun _ h => h.1
    | closeRsp c f d =>
      refine STri.bind (R := fun _ => Around L A k (Live A)) ?_ fun _ => tri_answered
      unfold receiveCloseRsp
      apply tri_self
      rintro t' rfl
      by_cases ha : t'.assoc = some c
      · rw [if_pos ha]
        exact (tri_sendSecured hl ha).weaken (fun _ h => h) fun _ _ h => h.mono fun _ h => h.1
      · rw [if_neg ha]
        exact tri_ret fun _ e => e ▸ hl
    | sendReq c f d =>
      refine STri.bind (R := fun _ => Around L A k (Live A)) ?_ fun _ => tri_answered
      unfold receiveSendReq
      apply tri_self
      rintro t' rfl
      by_cases ha : t'.assoc = some c
      · rw [if_pos ha]
        exact (tri_sendSecured hl ha).weaken (fun _ h => h) fun _ _ h => h.mono fun _ h => h.1
      · rw [if_neg ha]
        exact tri_ret fun _ e => e ▸ hl
    | releaseReq =>
      refine STri.bind (R := fun _ => Around L A k Ending) ?_ fun _ => tri_toInit
      exact tri_note fun _ e => e ▸ ending_asked hl

theorem Live.setRx {t : Tcp} (h : Live A t) (b : Buf) : Live A { t with rx := b } :=
  ⟨h.st, h.link, h.timer, h.hello, h.armed, ⟨h.logged.life, h.logged.own, h.logged.owner⟩⟩

theorem Live.weak {t : Tcp} (h : Live A t) : Live False t :=
  ⟨h.st, h.link, h.timer, h.hello, False.elim, h.logged⟩

theorem Live.arm {B : Prop} {t : Tcp} (h : Live B t) : Live A { t with armed := true } :=
  ⟨h.st, h.link, h.timer, h.hello, fun _ => rfl, ⟨h.logged.life, h.logged.own, h.logged.owner⟩⟩

theorem Live.disarm {t : Tcp} (h : Live A t) : Live False { t with armed := false } :=
  ⟨h.st, h.link, h.timer, h.hello, False.elim, ⟨h.logged.life, h.logged.own, h.logged.owner⟩⟩

theorem Live.unless {t : Tcp} (h : Live False t) (ha : ¬ A) : Live A t :=
  ⟨h.st, h.link, h.timer, h.hello, fun a => absurd a ha, h.logged⟩

/-- The environment never withholds a timer (unless `L`) and starting timers always works (if `A`). -/
def EnvOk (L A : Prop) (e : TEnv) : Prop := (e.timerFree = false → L) ∧ (A → e.starts = true)

theorem tri_receiveRx {k : Nat} {e : TEnv} {t : Tcp} (ht : Live A t) : STriI L A (Around L A k (· = t)) (receiveRx k e)
    (fun _ => Around L A k fun t' => Live A t' ∧ t'.st = t.st ∧ t'.assoc = t.assoc) := by
  unfold receiveRx
  apply tri_self
  rintro t' rfl
  rw [if_pos ht.link]
  refine STri.bind (R := fun _ => Around L A k (· = t')) (STri.lift (fun _ _ _ h => h)
    (fun _ _ h => live_inv h fun _ e => e ▸ ht)) fun x => ?_
  refine STri.bind (R := fun _ => Around L A k (· = { t' with rx := x.2 })) (tri_conn fun _ e => by rw [e]) fun _ => ?_
  exact tri_ret fun _ e => by rw [e]; exact ⟨ht.setRx _, rfl, rfl⟩

theorem tri_startTimer {k : Nat} {e : TEnv} (he : EnvOk L A e) : STriI L A (Around L A k (Live False)) (startTimer k e)
    (fun _ => Around L A k (Live A)) := by
  unfold startTimer
  apply tri_self
  intro t ht
  rw [if_pos ht.timer]
  split
  · exact tri_conn fun _ e => e ▸ ht.arm
  · next hs => exact STri.throws fun s h => live_inv h fun _ e => e ▸ ht.unless fun a => hs (he.2 a)

theorem tri_startReset {k : Nat} {e : TEnv} (he : EnvOk L A e) : STriI L A (Around L A k (Live False))
    (do startTimer k e; receivePreaction k) (fun _ => Srv.Inv L A) := by
  refine STri.bind (tri_startTimer he) fun _ => ?_
  refine (tri_conn (Q := Live A) fun t ht => ?_).weaken (fun _ h => h) (fun _ _ h => live_inv h fun _ h => h)
  exact ht.setRx _

theorem Live.setSt {t : Tcp} (h : Live A t) {st : TSt} (hi : st ≠ .init) (ha : st = .hello → t.assoc = none) :
    Live A { t with st := st } :=
  ⟨hi, h.link, h.timer, ha, h.armed, ⟨h.logged.life, h.logged.own, h.logged.owner⟩⟩

theorem tri_toConnected {k : Nat} {e : TEnv} (he : EnvOk L A e) : STriI L A (Around L A k (Live A)) (toConnected k e) (fun _ => Srv.Inv L A) := by
  unfold toConnected transit
  apply tri_self
  intro t ht
  by_cases h : t.st = .connected
  · rw [if_pos h]
    exact STri.ret fun s hs => live_inv hs fun _ e => e ▸ ht
  · rw [if_neg h]
    refine STri.bind (R := fun _ => Around L A k (Live False)) ?_ fun _ => ?_
    · match hst : t.st with
      | .init => exact absurd hst ht.st
      | .connected => exact absurd hst h
      | .hello =>
        unfold exit stopTimer
        apply tri_self
        rintro t' rfl
        rw [if_pos ht.timer]
        exact tri_conn fun _ e => e ▸ ht.disarm
    · refine STri.bind (R := fun _ => Around L A k (Live False)) (tri_conn fun t ht => ht.setSt (by simp) (by simp)) fun _ => ?_
      exact tri_startReset he

theorem tri_receiveHello {k : Nat} {e : TEnv} {t : Tcp} (ht : Live A t) (hh : t.st = .hello) :
    STriI L A (Around L A k (· = t)) (receiveHello k e) (fun _ => Around L A k fun t' => Live A t' ∧ t'.st = .hello) := by
  unfold receiveHello
  refine STri.bind (tri_receiveRx ht) fun x => ?_
  match x with
  | .noerror => exact tri_ret fun _ h => ⟨h.1, h.2.1.trans hh⟩
  | .error => exact tri_ret fun _ h => ⟨h.1, h.2.1.trans hh⟩
  | .done =>
    refine STri.bind (R := fun _ => Around L A k fun t' => Live A t' ∧ t'.st = .hello) ?_ fun _ => ?_
    · unfold decodeHello
      apply tri_self
      intro t' h'
      split
      · exact tri_conn fun _ e => by rw [e]; exact ⟨h'.1.setRx _, h'.2.1.trans hh⟩
      · refine STri.bind (R := fun _ => Around L A k (Live A)) (tri_conn fun _ e => by rw [e]; exact h'.1.setRx _) fun _ => ?_
        exact STri.throws fun s hs => live_inv hs fun _ h => h
      · exact STri.lift (fun _ _ h => by cases h) (fun _ h => by cases h)
      · exact STri.undefined
    · unfold sendAcknowledge
      rw [C45_acknowledge]
      apply tri_lift_ok
      apply tri_point
      intro t' h'
      refine (tri_linkSend (bytes := ackFrame) h'.1 ?_).weaken (fun _ h => h)
        fun _ _ h => h.mono fun _ h => ⟨h.1, h.2.1.trans h'.2⟩
      rw [h'.1.hello h'.2]
      rfl

theorem tri_forward {k : Nat} {ty : SecType} {h : UaMessageHeader} {t : Tcp} (ht : Live A t) :
    STriI L A (Around L A k (· = t)) (forward k ty h) (fun _ => Around L A k (Live A)) := by
  unfold forward
  apply tri_self
  rintro t' rfl
  have key : ∀ (f : List UInt8 → Up), (∀ d, (Life.live t'.assoc).next (.up (f d)) = some (.live t'.assoc)) →
      (∀ d, Owned t'.assoc (.up (f d))) → STriI L A (Around L A k (· = t'))
        (do let d ← SM.lift (handUp t'.rx); note k (.up (f d)); pure Res.done) (fun _ => Around L A k (Live A)) := by
    intro f hn ho
    refine STri.bind (R := fun _ => Around L A k (· = t')) (STri.lift (fun _ _ _ h => h)
      (fun s he hs => live_inv hs fun _ e => e ▸ ht)) fun d => ?_
    refine STri.bind (R := fun _ => Around L A k (Live A)) (tri_note fun _ e => e ▸ ?_) fun _ => tri_ret fun _ h => h
    exact ht.note (hn d) (ho d) (by rw [owner_append])
  have keep : STriI L A (Around L A k (· = t')) (pure Res.error : SM Srv Res) (fun _ => Around L A k (Live A)) :=
    tri_ret fun _ e => e ▸ ht
  match ty with
  | .msg =>
    by_cases ha : t'.assoc = some h.secureChannelId
    · simp only [if_pos ha]
      exact key _ (fun _ => by cases t'.assoc <;> rfl) (fun _ => ha)
    · simp only [if_neg ha]
      exact keep
  | .opn => exact key _ (fun _ => by cases t'.assoc <;> rfl) (fun _ => trivial)
  | .clo =>
    by_cases ha : t'.assoc = some h.secureChannelId
    · simp only [if_pos ha]
      exact key _ (fun _ => by cases t'.assoc <;> rfl) (fun _ => ha)
    · simp only [if_neg ha]
      exact keep
  | .invalid => exact keep

theorem tri_receiveSecured {k : Nat} {e : TEnv} {t : Tcp} (ht : Live A t) : STriI L A (Around L A k (· = t))
    (receiveSecuredMessage k e) (fun _ => Around L A k (Live A)) := by
  unfold receiveSecuredMessage
  refine STri.bind (tri_receiveRx ht) fun x => ?_
  match x with
  | .noerror => exact tri_ret fun _ h => h.1
  | .error => exact tri_ret fun _ h => h.1
  | .done =>
    apply tri_self
    intro t' h'
    refine STri.bind (R := fun _ => Around L A k (· = t')) (STri.lift (fun _ _ _ h => h)
      (fun s he hs => live_inv hs fun _ e => e ▸ h'.1)) fun r => ?_
    refine STri.bind (R := fun _ => Around L A k (· = { t' with rx := r.2 })) (tri_conn fun _ e => by rw [e]) fun _ => ?_
    exact tri_forward (h'.1.setRx _)

theorem tri_onData {k : Nat} {e : TEnv} (he : EnvOk L A e) : STriI L A (Around L A k (Busy L A)) (onData k e) (fun _ => Srv.Inv L A) := by
  unfold onData
  apply tri_self
  intro t ht
  match hst : t.st with
  | .init => exact STri.ret fun s hs => (hs.mono fun _ e => e ▸ ht).inv
  | .hello =>
    have hl : Live A t := by
      rcases ht with h | h
      · exact h
      · rw [h.2.st] at hst; cases hst
    refine STri.bind (tri_receiveHello hl hst) fun x => ?_
    match x with
    | .noerror => exact STri.ret fun s hs => live_inv hs fun _ h => h.1
    | .done => exact tri_pre (tri_toConnected he) fun _ h => h.1
    | .error => exact tri_pre tri_toInit fun _ h => ending_of_live h.1 (h.1.hello h.2)
  | .connected =>
    have hl : Live A t := by
      rcases ht with h | h
      · exact h
      · rw [h.2.st] at hst; cases hst
    refine STri.bind (tri_receiveSecured hl) fun x => ?_
    match x with
    | .noerror => exact STri.ret fun s hs => live_inv hs fun _ h => h
    | .done => exact tri_pre (tri_startReset he) fun _ h => h.weak
    | .error => exact tri_fail

theorem Busy.setOpened {t : Tcp} (h : Busy L A t) : Busy L A { t with opened := false } := by
  rcases h with h | ⟨hl, h⟩
  · exact .inl ⟨h.st, h.link, h.timer, h.hello, h.armed, ⟨h.logged.life, h.logged.own, h.logged.owner⟩⟩
  · exact .inr ⟨hl, h.st, h.link, h.timer, h.armed, h.assoc, ⟨h.logged.life, h.logged.own, h.logged.owner⟩⟩

theorem tri_onTimer {k : Nat} : STriI L A (Around L A k fun t => Busy L A t ∧ t.armed = true) (onTimer k)
    (fun _ => Srv.Inv L A) := by
  unfold onTimer
  refine STri.bind (R := fun _ => Around L A k (Live False)) (tri_conn fun t ht => ?_) fun _ => ?_
  · rcases ht with ⟨h | h, ha⟩
    · exact h.disarm
    · rw [h.2.armed] at ha; cases ha
  · apply tri_self
    intro t ht
    match hst : t.st with
    | .init => exact absurd hst ht.st
    | .hello => exact tri_pre tri_toInit fun _ e => e ▸ ending_of_live ht (ht.hello hst)
    | .connected => exact tri_pre tri_fail fun _ e => e ▸ ht

/-! ## Accepting -/

theorem Idle.lost {t : Tcp} (h : Idle t) : Lost { t with link := true, opened := true } :=
  ⟨h.st, rfl, h.timer, h.armed, h.assoc, ⟨h.logged.life, h.logged.own, h.logged.owner⟩⟩

theorem tri_toHello {k : Nat} {e : TEnv} {t : Tcp} (he : EnvOk L A e) (hst : t.st = .init) (ht : Live False { t with st := .hello }) :
    STriI L A (Around L A k (· = t)) (toHello k e) (fun _ => Srv.Inv L A) := by
  unfold toHello transit
  apply tri_self
  rintro t' rfl
  rw [if_neg (by rw [hst]; simp), hst]
  refine STri.bind (R := fun _ => Around L A k (· = t')) (tri_ret fun _ h => h) fun _ => ?_
  refine STri.bind (R := fun _ => Around L A k (Live False)) (tri_conn fun _ e => by rw [e]; exact ht) fun _ => ?_
  exact tri_startReset he

theorem tri_onAcceptLink {k : Nat} {e : TEnv} (he : EnvOk L A e) : STriI L A (Around L A k Idle) (onAcceptLink k e) (fun _ => Srv.Inv L A) := by
  unfold onAcceptLink
  apply tri_self
  intro t ht
  rw [ht.st]
  refine STri.bind (R := fun _ => Around L A k (· = { t with link := true, opened := true }))
    (tri_conn fun _ e => by rw [e]) fun _ => ?_
  refine STri.bind (R := fun _ => Around L A k
    fun x => x = { t with link := true, opened := true, timer := true, armed := false }) ?_ fun _ => ?_
  · unfold allocTimer
    split
    · exact tri_conn fun _ e => by rw [e]
    · next hf => exact STri.throws fun s hs => (hs.mono fun _ e => e ▸ Or.inr ⟨he.1 (by simpa using hf), ht.lost⟩).inv
  · let u : Tcp := { t with link := true, opened := true, timer := true, armed := false, log := t.log ++ [.accepted] }
    refine STri.bind (R := fun _ => Around L A k (· = u)) (tri_note fun _ e => by rw [e]) fun _ => ?_
    refine tri_toHello he ht.st ⟨by simp, rfl, rfl, fun _ => ht.assoc, False.elim, ?_⟩
    have hs := ht.logged.snoc (a := .accepted) (q := .live none) rfl trivial
    show Logged _ (.live t.assoc) t.assoc
    rw [ht.assoc]
    exact ⟨hs.1, hs.2, by rw [owner_append]; exact ht.logged.owner⟩

theorem inv_around {s : Srv} (h : s.Inv L A) {k : Nat} (hk : Pool.valid k) :
    Around L A k (Busy L A) s ∨ Idle (s.conns k) := by
  obtain ⟨l, h1, h2⟩ := h
  by_cases hm : k ∈ l
  · exact .inr ((h2 k hk).1 hm)
  · exact .inl ⟨l, h1, hk, hm, fun j hj _ => h2 j hj, (h2 k hk).2 hm⟩

theorem tri_onAccept {e : TEnv} (he : EnvOk L A e) : STriI L A (Srv.Inv L A) (onAccept e) (fun _ => Srv.Inv L A) := by
  unfold onAccept
  refine STri.bind (R := fun _ => Srv.Inv L A) ?_ fun _ => ?_
  · unfold takeLink
    split
    · exact STri.ret fun _ h => h
    · exact STri.throws fun _ h => h
  · refine STri.bind (R := fun r s => match r with | none => s.Inv L A | some k => Around L A k Idle s) ?_ fun r => ?_
    · rintro s ⟨l, h1, h2⟩
      unfold allocId
      cases l with
      | nil =>
        simp only [h1.alloc_nil]
        exact ⟨[], h1, h2⟩
      | cons k l =>
        obtain ⟨q, hq, hf⟩ := h1.alloc_cons
        simp only [hq]
        have hn := List.nodup_cons.1 h1.nodup
        refine ⟨l, hf, h1.ids k (by simp), hn.1, ?_, (h2 k (h1.ids k (by simp))).1 (by simp)⟩
        intro j hj hne
        have hg := h2 j hj
        exact ⟨fun h => hg.1 (List.mem_cons_of_mem _ h), fun h => hg.2 fun h' =>
          (List.mem_cons.1 h').elim hne h⟩
    · match r with
      | none => exact STri.ret fun _ h => h
      | some k => exact tri_onAcceptLink he

theorem conn_idle_st {k : Nat} {e : TEnv} {s : Srv} {m : Down} (h : Idle (s.conns k)) :
    onReceive k e m s = (.ok (), s) := by
  simp only [onReceive, bind_run, self, andThen, h.st]
  rfl

theorem next_keeps {s s' : Srv} {e : TEnv} {v : TEv} (he : EnvOk L A e) (h : s.Inv L A) (hp : Possible s v)
    (hn : next s e v = .ok s') : s'.Inv L A := by
  have key : SPost (Srv.Inv L A) (fun _ => Srv.Inv L A) (event e v s) := by
    cases v with
    | accept => exact tri_onAccept he s h
    | linkData k =>
      rcases inv_around h hp.1 with h' | h'
      · exact tri_onData he s h'
      · have := hp.2; rw [h'.link] at this; cases this
    | linkError k =>
      rcases inv_around h hp.1 with h' | h'
      · exact ((tri_conn (T := Srv.Inv L A) (Q := Busy L A) fun t ht => Busy.setOpened ht).weaken (fun _ h => h)
          (fun _ _ h => h.inv)) s h'
      · have := hp.2; rw [h'.link] at this; cases this
    | timer k =>
      rcases inv_around h hp.1 with ⟨l, h1, h2, h3, h4, h5⟩ | h'
      · exact tri_onTimer s ⟨l, h1, h2, h3, h4, h5, hp.2⟩
      · have := hp.2; rw [h'.armed] at this; cases this
    | down k m =>
      show SPost _ _ ((if Pool.valid k then onReceive k e m else undefined) s)
      split
      · next hv =>
        rcases inv_around h hv with h' | h'
        · exact tri_onReceive s h'
        · rw [conn_idle_st h']; exact h
      · exact trivial
  rcases settle_ok key hn with h | ⟨_, h⟩ <;> exact h

theorem create_keeps {m : Nat → Mem} {s : Srv} (h : Srv.create m = .ok s) : s.Inv L A := by
  obtain ⟨q, h1, h2⟩ := Pool.free_create
  simp only [Srv.create, h1, Exec.ok_bind, Exec.pure_eq, Exec.ok.injEq] at h
  subst h
  refine ⟨_, h2, fun k hk => ⟨fun _ => ⟨rfl, rfl, rfl, rfl, rfl, rfl, AllOwned.nil, rfl⟩, fun hn => ?_⟩⟩
  exact absurd (List.mem_range'_1.2 ⟨hk.1, by have := hk.2; unfold poolCap at *; omega⟩) hn

theorem reach_inv {m : Nat → Mem} {evs : List (TEnv × TEv)} {s : Srv} (he : ∀ x ∈ evs, EnvOk L A x.1)
    (h : Srv.Reach m evs s) : s.Inv L A := by
  induction h with
  | create h => exact create_keeps h
  | @step evs s s' e v _ hp hn ih =>
    exact next_keeps (he (e, v) (by simp)) (ih fun x hx => he x (List.mem_append_left _ hx)) hp hn

/-! ## Exact outcomes -/

/-- What a connection says to its channel when it fails. -/
def farewell (o : Option UInt32) : List TAct :=
  match o with
  | none => []
  | some c => [.up (.released c)]

/-- Connection `k` replaced, everything else (but the free identifiers) unchanged. -/
def Only (k : Nat) (t : Tcp) (s s' : Srv) : Prop := s'.conns k = t ∧ ∀ j, j ≠ k → s'.conns j = s.conns j

/-- The farewell written to the log. -/
def tell (t : Tcp) : Tcp := { t with log := t.log ++ farewell t.assoc }

theorem tell_none {t : Tcp} (ha : t.assoc = none) : tell t = t := by
  cases t with
  | mk st rx link opened timer armed assoc log =>
    subst ha
    simp [tell, farewell]

theorem ending_tell {B : Prop} {t : Tcp} (h : Live B t) : Ending (tell t) := by
  rcases ha : t.assoc with _ | c
  · rw [tell_none ha]
    exact ending_of_live h ha
  · have : tell t = { t with log := t.log ++ [.up (.released c)] } := by simp [tell, ha, farewell]
    rw [this]
    exact ending_told h ha

theorem set_self (s : Srv) (k : Nat) : s.set k (s.conns k) = s := by
  cases s with
  | mk ids conns =>
    simp only [Srv.set, Srv.mk.injEq, true_and]
    funext i
    by_cases e : i = k
    · subst e; simp
    · simp [e]

theorem tell_run (k : Nat) (s : Srv) : sendReleaseInd k s = (.ok (), s.set k (tell (s.conns k))) := by
  simp only [sendReleaseInd, bind_run, self, andThen]
  cases ha : (s.conns k).assoc with
  | none =>
    rw [tell_none ha, set_self]
    rfl
  | some c =>
    have : tell (s.conns k) = { (s.conns k) with log := (s.conns k).log ++ [.up (.released c)] } := by
      simp [tell, ha, farewell]
    rw [this]
    rfl

theorem toInit_only {k : Nat} {s : Srv} (h : Around L A k Ending s) : ∃ s', toInit k s = (.ok (), s') ∧
    Only k (ended (s.conns k)) s s' := by
  obtain ⟨q, _, hr⟩ := toInit_run h
  exact ⟨_, hr, by simp, fun j hj => by simp [hj]⟩

theorem fail_run {B : Prop} {k : Nat} {s : Srv} (h : Around L A k (Live B) s) : ∃ s', fail k s = (.ok (), s') ∧
    Only k (ended (tell (s.conns k))) s s' := by
  obtain ⟨l, h1, h2, h3, h4, h5⟩ := h
  have hs' : Around L A k Ending (s.set k (tell (s.conns k))) := by
    refine ⟨l, h1, h2, h3, fun j hj hne => ?_, ?_⟩
    · simp only [Srv.set, if_neg hne]
      exact h4 j hj hne
    · simp only [Srv.set, if_pos]
      exact ending_tell h5
  obtain ⟨q, _, hr⟩ := toInit_run hs'
  have hf : fail k s = toInit k (s.set k (tell (s.conns k))) := by
    simp only [fail, bind_run, tell_run, andThen]
  rw [hf, hr]
  exact ⟨_, rfl, by simp [Srv.set], fun j hj => by simp [Srv.set, hj]⟩

theorem Takes.secHeader (old : UaMessageHeader) : Takes 12 (dec old) :=
  Takes.bind (n := 3) (k := 9) (Takes.bind (n := 1) (k := 2) (Takes.u8 _) fun _ => Takes.bind (n := 2) (k := 0)
      (Takes.bind (n := 1) (k := 1) (Takes.u8 _) fun _ => Takes.bind (n := 1) (k := 0) (Takes.u8 _) fun _ => Takes.pure _)
      fun _ => Takes.pure _)
    fun _ => Takes.bind (n := 1) (k := 8) (Takes.u8 _) fun _ => Takes.bind (n := 4) (k := 4) (Takes.u32 _)
    fun _ => Takes.bind (n := 4) (k := 0) (Takes.u32 _) fun _ => Takes.pure _

/-- Data in the connected state, up to the forwarding. -/
theorem onData_run {k : Nat} {e : TEnv} {s : Srv} {b b' : Buf} {h : UaMessageHeader} (hst : (s.conns k).st = .connected)
    (hl : (s.conns k).link = true) (hr : receive (s.conns k).opened e.rx (s.conns k).rx = .ok (.done, b))
    (hd : dec (Ua.init : UaMessageHeader) b = .ok (h, b')) : onData k e s =
      andThen (forward k (secType b) h ((s.set k { (s.conns k) with rx := b }).set k { (s.conns k) with rx := b' }))
        (fun x => match x with
          | .noerror => pure ()
          | .done => do
            startTimer k e
            receivePreaction k
          | .error => fail k) := by
  simp only [onData, bind_run, self, andThen, hst, receiveSecuredMessage, receiveRx, hl, if_true, hr, lift, conn,
    SM.modify, pure_run, Srv.set, hd]
  rfl

/-! ## C35 -/

/-- C35: in every history, whatever a connection forwards for a channel, reports about a channel or writes to the peer
belongs to the channel assigned to it last; before a channel is assigned it writes nothing but the acknowledge
message. -/
theorem C35_own_traffic (m : Nat → Mem) (evs : List (TEnv × TEv)) (s : Srv) (h : Srv.Reach m evs s) (k : Nat)
    (hk : Pool.valid k) (pre post : List TAct) (a : TAct) (hl : (s.conns k).log = pre ++ a :: post) :
    Owned (owner pre) a := by
  have hi : s.Inv True False := reach_inv (fun _ _ => ⟨fun _ => trivial, False.elim⟩) h
  rcases inv_around hi hk with ⟨_, _, _, _, _, h' | h'⟩ | h'
  · exact h'.logged.own pre a post hl
  · exact h'.2.logged.own pre a post hl
  · exact h'.logged.own pre a post hl

theorem reach_live {m : Nat → Mem} {evs : List (TEnv × TEv)} {s : Srv} (h : Srv.Reach m evs s) {k : Nat}
    (hk : Pool.valid k) (hst : (s.conns k).st ≠ .init) : Around True False k (Live False) s := by
  have hi : s.Inv True False := reach_inv (fun _ _ => ⟨fun _ => trivial, False.elim⟩) h
  rcases inv_around hi hk with ⟨l, h1, h2, h3, h4, h' | h'⟩ | h'
  · exact ⟨l, h1, h2, h3, h4, h'⟩
  · exact absurd h'.2.st hst
  · exact absurd h'.st hst

theorem around_set {k : Nat} {P Q : Tcp → Prop} {s : Srv} (h : Around L A k P s) {t : Tcp} (ht : Q t) :
    Around L A k Q (s.set k t) := by
  obtain ⟨l, h1, h2, h3, h4, h5⟩ := h
  refine ⟨l, h1, h2, h3, fun j hj hne => ?_, ?_⟩
  · simp only [Srv.set, if_neg hne]
    exact h4 j hj hne
  · simp only [Srv.set, if_pos]
    exact ht

theorem Only.set {k : Nat} {t u : Tcp} {s s' : Srv} (h : Only k t (s.set k u) s') : Only k t s s' :=
  ⟨h.1, fun j hj => by rw [h.2 j hj]; simp [Srv.set, hj]⟩

/-- C35: a complete MSG or CLO chunk that names a channel other than the connection's own, or a chunk of an unknown type,
ends the connection: nothing is forwarded. -/
theorem C35_foreign_chunk_ends (m : Nat → Mem) (evs : List (TEnv × TEv)) (s : Srv) (h : Srv.Reach m evs s) (k : Nat)
    (hk : Pool.valid k) (hst : (s.conns k).st = .connected) (e : TEnv) (b b' : Buf) (hdr : UaMessageHeader)
    (hr : receive (s.conns k).opened e.rx (s.conns k).rx = .ok (.done, b))
    (hd : dec (Ua.init : UaMessageHeader) b = .ok (hdr, b')) (hty : secType b ≠ .opn)
    (hf : secType b ≠ .invalid → (s.conns k).assoc ≠ some hdr.secureChannelId) :
    ∃ s', next s e (.linkData k) = .ok s' ∧ (s'.conns k).st = .init ∧ (s'.conns k).link = false ∧
      (s'.conns k).log = (s.conns k).log ++ farewell (s.conns k).assoc ++ [.released] ∧
      ∀ j, j ≠ k → s'.conns j = s.conns j := by
  have hlive := reach_live h hk (by rw [hst]; simp)
  have hl := hlive.choose_spec.2.2.2.2
  have hrun := onData_run hst hl.link hr hd
  let s1 : Srv := (s.set k { (s.conns k) with rx := b }).set k { (s.conns k) with rx := b' }
  have h1 : s1.conns k = { (s.conns k) with rx := b' } := by simp [s1, Srv.set]
  have hassoc : (s1.conns k).assoc = (s.conns k).assoc := by rw [h1]
  have hforward : forward k (secType b) hdr s1 = (.ok .error, s1) := by
    simp only [forward, bind_run, self, andThen]
    cases hb : secType b with
    | msg => simp only [hassoc, if_neg (hf (by simp [hb]))]; rfl
    | opn => exact absurd hb hty
    | clo => simp only [hassoc, if_neg (hf (by simp [hb]))]; rfl
    | invalid => rfl
  have hs1 : Around True False k (Live False) s1 := around_set (around_set hlive (hl.setRx b)) (hl.setRx b')
  obtain ⟨s', hfail, honly⟩ := fail_run hs1
  refine ⟨s', ?_, ?_⟩
  · show settle (onData k e s) = _
    rw [hrun]
    show settle (andThen (forward k (secType b) hdr s1) _) = _
    rw [hforward]
    show settle (fail k s1) = _
    rw [hfail]
    rfl
  · have ho : Only k (ended (tell (s1.conns k))) s s' := Only.set (Only.set honly)
    rw [h1] at ho
    exact ⟨by rw [ho.1]; rfl, by rw [ho.1]; rfl, by rw [ho.1]; rfl, ho.2⟩

/-- C35: an answer of another channel ends the connection and nothing is written. -/
theorem C35_foreign_answer_ends (m : Nat → Mem) (evs : List (TEnv × TEv)) (s : Srv) (h : Srv.Reach m evs s) (k : Nat)
    (hk : Pool.valid k) (hst : (s.conns k).st = .connected) (e : TEnv) (c : UInt32) (f : UInt8) (d : List UInt8)
    (hf : (s.conns k).assoc ≠ some c) (v : Down) (hv : v = .sendReq c f d ∨ v = .closeRsp c f d) :
    ∃ s', next s e (.down k v) = .ok s' ∧ (s'.conns k).st = .init ∧ (s'.conns k).link = false ∧
      (s'.conns k).log = (s.conns k).log ++ farewell (s.conns k).assoc ++ [.released] ∧
      ∀ j, j ≠ k → s'.conns j = s.conns j := by
  have hlive := reach_live h hk (by rw [hst]; simp)
  obtain ⟨s', hfail, ho⟩ := fail_run hlive
  refine ⟨s', ?_, ?_⟩
  · have : event e (.down k v) s = fail k s := by
      show (if Pool.valid k then onReceive k e v else undefined) s = _
      rw [if_pos hk]
      rcases hv with hv | hv <;> subst hv
      · simp only [onReceive, bind_run, self, andThen, hst, receiveSendReq, if_neg hf]
        rfl
      · simp only [onReceive, bind_run, self, andThen, hst, receiveCloseRsp, if_neg hf]
        rfl
    show settle (event e (.down k v) s) = _
    rw [this, hfail]
    rfl
  · exact ⟨by rw [ho.1]; rfl, by rw [ho.1]; rfl, by rw [ho.1]; rfl, ho.2⟩

/-! ## C36 -/

/-- C36: the log of every connection in every history follows `Life`: one accepted link at a time, the own channel told
exactly once before the identifier is given back (not at all if the channel component asked for the end or no channel
was assigned), the identifier given back exactly once, and the phase agrees with the state. -/
theorem C36_life (m : Nat → Mem) (evs : List (TEnv × TEv)) (s : Srv) (h : Srv.Reach m evs s) (k : Nat)
    (hk : Pool.valid k) : Life.run .idle (s.conns k).log =
      some (if (s.conns k).st = .init then .idle else .live (s.conns k).assoc) := by
  have hi : s.Inv True False := reach_inv (fun _ _ => ⟨fun _ => trivial, False.elim⟩) h
  rcases inv_around hi hk with ⟨_, _, _, _, _, h' | h'⟩ | h'
  · rw [if_neg h'.st]; exact h'.logged.life
  · rw [if_pos h'.2.st]; exact h'.2.logged.life
  · rw [if_pos h'.st]; exact h'.logged.life

/-- C36 (`_partial`: as long as the reactor always has a timer for an accepted link): a connection in its initial state
has released link, timer and channel, and its identifier is free, listed once; a connection in another state holds a
link and a timer and its identifier is not free. -/
theorem C36_resources_partial (m : Nat → Mem) (evs : List (TEnv × TEv)) (s : Srv) (h : Srv.Reach m evs s)
    (hev : ∀ x ∈ evs, x.1.timerFree = true) : ∃ free : List Nat, Queue.Holds s.ids free ∧ free.Nodup ∧
      ∀ k, Pool.valid k →
        ((s.conns k).st = .init → k ∈ free ∧ (s.conns k).link = false ∧ (s.conns k).timer = false ∧
          (s.conns k).armed = false ∧ (s.conns k).assoc = none) ∧
        ((s.conns k).st ≠ .init → k ∉ free ∧ (s.conns k).link = true ∧ (s.conns k).timer = true) := by
  have hi : s.Inv False False := reach_inv (fun x hx => ⟨fun hf => (by rw [hev x hx] at hf; cases hf), False.elim⟩) h
  obtain ⟨l, h1, h2⟩ := hi
  refine ⟨l, h1.holds, h1.nodup, fun k hk => ?_⟩
  by_cases hm : k ∈ l
  · have hd := (h2 k hk).1 hm
    exact ⟨fun _ => ⟨hm, hd.link, hd.timer, hd.armed, hd.assoc⟩, fun hs => absurd hd.st hs⟩
  · rcases (h2 k hk).2 hm with hd | hd
    · exact ⟨fun hs => absurd hs hd.st, fun _ => ⟨hm, hd.link, hd.timer⟩⟩
    · exact hd.1.elim

/-- C36 (`_partial`: as long as timers can be had and started): every connection that serves a link has its timer
running, so it cannot stay for ever. -/
theorem C36_deadline_partial (m : Nat → Mem) (evs : List (TEnv × TEv)) (s : Srv) (h : Srv.Reach m evs s)
    (hev : ∀ x ∈ evs, x.1.timerFree = true ∧ x.1.starts = true) (k : Nat) (hk : Pool.valid k)
    (hst : (s.conns k).st ≠ .init) : (s.conns k).armed = true := by
  have hi : s.Inv False True :=
    reach_inv (fun x hx => ⟨fun hf => (by rw [(hev x hx).1] at hf; cases hf), fun _ => (hev x hx).2⟩) h
  rcases inv_around hi hk with ⟨_, _, _, _, _, h' | h'⟩ | h'
  · exact h'.armed trivial
  · exact h'.1.elim
  · exact absurd h'.st hst

/-- C36: the timer ends the connection in every state, telling the channel if there is one. -/
theorem C36_timeout_ends (m : Nat → Mem) (evs : List (TEnv × TEv)) (s : Srv) (h : Srv.Reach m evs s) (k : Nat)
    (hk : Pool.valid k) (ha : (s.conns k).armed = true) (e : TEnv) :
    ∃ s', next s e (.timer k) = .ok s' ∧ (s'.conns k).st = .init ∧ (s'.conns k).link = false ∧
      (s'.conns k).timer = false ∧ (s'.conns k).log = (s.conns k).log ++ farewell (s.conns k).assoc ++ [.released] ∧
      ∀ j, j ≠ k → s'.conns j = s.conns j := by
  have hi : s.Inv True False := reach_inv (fun _ _ => ⟨fun _ => trivial, False.elim⟩) h
  have hst : (s.conns k).st ≠ .init := by
    rcases inv_around hi hk with ⟨_, _, _, _, _, h' | h'⟩ | h'
    · exact h'.st
    · rw [h'.2.armed] at ha; cases ha
    · rw [h'.armed] at ha; cases ha
  have hlive := reach_live h hk hst
  have hl := hlive.choose_spec.2.2.2.2
  let s1 : Srv := s.set k { (s.conns k) with armed := false }
  have h1 : s1.conns k = { (s.conns k) with armed := false } := by simp [s1, Srv.set]
  have hs1 : Around True False k (Live False) s1 := around_set hlive hl.disarm
  obtain ⟨s2, hfail, ho2⟩ := fail_run hs1
  have hev : event e (.timer k) s = (.ok (), s2) ∨ (s.conns k).st = .hello := by
    cases hs : (s.conns k).st with
    | init => exact absurd hs hst
    | hello => exact .inr rfl
    | connected =>
      refine .inl ?_
      show onTimer k s = _
      simp only [onTimer, bind_run, conn, SM.modify, andThen, self]
      show (match (s1.conns k).st with
        | .init => pure ()
        | .hello => toInit k
        | .connected => fail k : SM Srv Unit) s1 = _
      rw [h1]
      show (match (s.conns k).st with
        | .init => pure ()
        | .hello => toInit k
        | .connected => fail k : SM Srv Unit) s1 = _
      rw [hs]
      exact hfail
  rcases hev with hev | hs
  · refine ⟨s2, by show settle _ = _; rw [hev]; rfl, ?_⟩
    have ho : Only k (ended (tell (s1.conns k))) s s2 := Only.set ho2
    rw [h1] at ho
    exact ⟨by rw [ho.1]; rfl, by rw [ho.1]; rfl, by rw [ho.1]; rfl, by rw [ho.1]; rfl, ho.2⟩
  · have hn : (s.conns k).assoc = none := hl.hello hs
    have hen : Around True False k Ending s1 := around_set hlive (ending_of_live hl.disarm hn)
    obtain ⟨s3, hr, ho3⟩ := toInit_only hen
    refine ⟨s3, ?_, ?_⟩
    · show settle (onTimer k s) = _
      have : onTimer k s = toInit k s1 := by
        simp only [onTimer, bind_run, conn, SM.modify, andThen, self]
        show (match (s1.conns k).st with
          | .init => pure ()
          | .hello => toInit k
          | .connected => fail k : SM Srv Unit) s1 = _
        rw [h1]
        show (match (s.conns k).st with
          | .init => pure ()
          | .hello => toInit k
          | .connected => fail k : SM Srv Unit) s1 = _
        rw [hs]
      rw [this, hr]
      rfl
    · have ho : Only k (ended (s1.conns k)) s s3 := Only.set ho3
      rw [h1] at ho
      exact ⟨by rw [ho.1]; rfl, by rw [ho.1]; rfl, by rw [ho.1]; rfl,
        by rw [ho.1, hn]; simp [ended, farewell], ho.2⟩

/-- C36: at the request of the channel component the connection ends without telling anybody. -/
theorem C36_request_ends (m : Nat → Mem) (evs : List (TEnv × TEv)) (s : Srv) (h : Srv.Reach m evs s) (k : Nat)
    (hk : Pool.valid k) (hst : (s.conns k).st = .connected) (e : TEnv) :
    ∃ s', next s e (.down k .releaseReq) = .ok s' ∧ (s'.conns k).st = .init ∧ (s'.conns k).link = false ∧
      (s'.conns k).timer = false ∧ (s'.conns k).log = (s.conns k).log ++ [.asked, .released] ∧
      ∀ j, j ≠ k → s'.conns j = s.conns j := by
  have hlive := reach_live h hk (by rw [hst]; simp)
  have hl := hlive.choose_spec.2.2.2.2
  let s1 : Srv := s.set k { (s.conns k) with log := (s.conns k).log ++ [.asked] }
  have h1 : s1.conns k = { (s.conns k) with log := (s.conns k).log ++ [.asked] } := by simp [s1, Srv.set]
  have hen : Around True False k Ending s1 := around_set hlive (ending_asked hl)
  obtain ⟨s2, hr, ho2⟩ := toInit_only hen
  refine ⟨s2, ?_, ?_⟩
  · have : event e (.down k .releaseReq) s = toInit k s1 := by
      show (if Pool.valid k then onReceive k e .releaseReq else undefined) s = _
      rw [if_pos hk]
      simp only [onReceive, bind_run, self, andThen, hst]
      rfl
    show settle (event e (.down k .releaseReq) s) = _
    rw [this, hr]
    rfl
  · have ho : Only k (ended (s1.conns k)) s s2 := Only.set ho2
    rw [h1] at ho
    exact ⟨by rw [ho.1]; rfl, by rw [ho.1]; rfl, by rw [ho.1]; rfl, by rw [ho.1]; simp [ended], ho.2⟩

/-- C36: a read error (or more than 1024 bytes without a complete chunk) ends the connection. -/
theorem C36_read_error_ends (m : Nat → Mem) (evs : List (TEnv × TEv)) (s : Srv) (h : Srv.Reach m evs s) (k : Nat)
    (hk : Pool.valid k) (hst : (s.conns k).st = .connected) (e : TEnv) (b : Buf)
    (hr : receive (s.conns k).opened e.rx (s.conns k).rx = .ok (.error, b)) :
    ∃ s', next s e (.linkData k) = .ok s' ∧ (s'.conns k).st = .init ∧ (s'.conns k).link = false ∧
      (s'.conns k).timer = false ∧ (s'.conns k).log = (s.conns k).log ++ farewell (s.conns k).assoc ++ [.released] ∧
      ∀ j, j ≠ k → s'.conns j = s.conns j := by
  have hlive := reach_live h hk (by rw [hst]; simp)
  have hl := hlive.choose_spec.2.2.2.2
  let s1 : Srv := s.set k { (s.conns k) with rx := b }
  have h1 : s1.conns k = { (s.conns k) with rx := b } := by simp [s1, Srv.set]
  obtain ⟨s2, hfail, ho2⟩ := fail_run (around_set hlive (hl.setRx b) : Around True False k (Live False) s1)
  refine ⟨s2, ?_, ?_⟩
  · have : onData k e s = fail k s1 := by
      have hrx : receiveRx k e s = (.ok .error, s1) := by
        simp only [receiveRx, bind_run, self, andThen, hr]
        rw [if_pos hl.link]
        rfl
      simp only [onData, bind_run, self, andThen, hst, receiveSecuredMessage, hrx]
      rfl
    show settle (onData k e s) = _
    rw [this, hfail]
    rfl
  · have ho : Only k (ended (tell (s1.conns k))) s s2 := Only.set ho2
    rw [h1] at ho
    exact ⟨by rw [ho.1]; rfl, by rw [ho.1]; rfl, by rw [ho.1]; rfl, by rw [ho.1]; rfl, ho.2⟩

/-! ## Chunks of secured messages and C46 -/

/-- The three letters of a secured chunk. -/
def letters : SecType → UInt8 × UInt8 × UInt8
  | .msg => (0x4D, 0x53, 0x47)
  | .opn => (0x4F, 0x50, 0x4E)
  | .clo => (0x43, 0x4C, 0x4F)
  | .invalid => (0x58, 0x58, 0x58)

/-- A chunk as a client sends it: letters, flag, length, channel, payload (OPC 10000-6, 6.7.2.2). -/
def chunk (ty : SecType) (flag : UInt8) (channel : UInt32) (payload : List UInt8) : List UInt8 :=
  [(letters ty).1, (letters ty).2.1, (letters ty).2.2, flag] ++ leBytes 4 (payload.length + 12) ++ leBytes 4 channel.toNat ++
    payload

/-- What the layer above is told about a chunk. -/
def upOf (ty : SecType) (channel : UInt32) (flag : UInt8) (data : List UInt8) : Up :=
  match ty with
  | .msg => .message channel flag data
  | .opn => .open channel flag data
  | .clo => .close channel flag data
  | .invalid => .message channel flag data

def headerOf (ty : SecType) (flag : UInt8) (channel : UInt32) (n : Nat) : UaMessageHeader :=
  ⟨letters ty, flag, UInt32.ofNat (n + 12), channel⟩

theorem chunk_eq (ty : SecType) (flag : UInt8) (channel : UInt32) (payload : List UInt8) (h : payload.length ≤ 4084) :
    chunk ty flag channel payload = Wire.wire (headerOf ty flag channel payload.length) ++ payload := by
  show _ = ((Wire.wire (letters ty).1 ++ (Wire.wire (letters ty).2.1 ++ Wire.wire (letters ty).2.2)) ++
    (Wire.wire flag ++ (leBytes 4 (UInt32.ofNat (payload.length + 12)).toNat ++ leBytes 4 channel.toNat))) ++ payload
  rw [wire_u8, wire_u8, wire_u8, wire_u8, UInt32.toNat_ofNat', Nat.mod_eq_of_lt (by omega)]
  simp [chunk]

theorem chunk_length (ty : SecType) (flag : UInt8) (channel : UInt32) (payload : List UInt8) :
    (chunk ty flag channel payload).length = payload.length + 12 := by
  simp only [chunk, List.length_append, List.length_cons, List.length_nil]
  have : ∀ n, (leBytes 4 n).length = 4 := fun _ => rfl
  rw [this, this]
  omega

/-- The receive buffer holds exactly this chunk. -/
def HoldsChunk (b : Buf) (f : List UInt8) : Prop := b.tail = 0 ∧ memRead b.packet 0 b.head = f

theorem HoldsChunk.head {b : Buf} {f : List UInt8} (h : HoldsChunk b f) : b.head = f.length := by
  rw [← h.2, MsgStorage.length_memRead]

theorem holds_decodes {b : Buf} {ty : SecType} {flag : UInt8} {channel : UInt32} {payload : List UInt8}
    (h : HoldsChunk b (chunk ty flag channel payload)) (hn : payload.length ≤ 4084) :
    dec (Ua.init : UaMessageHeader) b = .ok (headerOf ty flag channel payload.length, b.skip 12) ∧
      memRead b.packet 12 payload.length = payload := by
  have hh := h.head
  obtain ⟨h0, h1⟩ := h
  rw [hh] at h1
  rw [chunk_eq _ _ _ _ hn] at h1
  have hs := memRead_app h1
  have hw : (Wire.wire (headerOf ty flag channel payload.length)).length = 12 := rfl
  rw [hw] at hs
  constructor
  · have hok : Wire.ok (headerOf ty flag channel payload.length) :=
      (⟨⟨trivial, trivial, trivial⟩, trivial, trivial, trivial⟩ : (True ∧ True ∧ True) ∧ True ∧ True ∧ True)
    have := Lawful.reads (headerOf ty flag channel payload.length) hok b
      (by rw [hw, h0]; simp [maxPacketLen]) (by rw [hw, h0]; exact hs.1)
    rw [hw] at this
    exact this
  · exact hs.2

theorem holds_secType {b : Buf} {ty : SecType} {flag : UInt8} {channel : UInt32} {payload : List UInt8}
    (h : HoldsChunk b (chunk ty flag channel payload)) : secType b = ty := by
  have hh := h.head
  obtain ⟨h0, h1⟩ := h
  rw [chunk_length] at hh
  have hg : ∀ i, i < b.head → b.packet (b.tail + i) = (chunk ty flag channel payload).getD i 0 := by
    intro i hi
    rw [← h1, getD_memRead _ _ _ _ hi, h0]
  unfold secType byteIs
  rw [hg 0 (by omega), hg 1 (by omega), hg 2 (by omega)]
  cases ty <;> rfl

theorem handUp_holds {b : Buf} {ty : SecType} {flag : UInt8} {channel : UInt32} {payload : List UInt8}
    (h : HoldsChunk b (chunk ty flag channel payload)) (hn : payload.length ≤ 4060) :
    handUp (b.skip 12) = .ok (payload ++ memRead b.packet b.head 12) := by
  have hh := h.head
  have hd := (holds_decodes h (by omega)).2
  rw [chunk_length] at hh
  unfold handUp
  have hsz : (b.skip 12).size = payload.length + 12 := hh
  have ht : (b.skip 12).tail = 12 := by simp [Buf.skip, h.1]
  rw [if_pos (by rw [hsz, ht]; simp only [maxPacketLen, upRoom]; omega)]
  simp only [Buf.bytes, hsz, ht]
  show Exec.ok (memRead b.packet 12 (payload.length + 12)) = _
  rw [memRead_split, hd, hh, Nat.add_comm 12]

/-- What a complete chunk does, in full. -/
theorem chunk_run (m : Nat → Mem) (evs : List (TEnv × TEv)) (s : Srv) (h : Srv.Reach m evs s) (k : Nat)
    (hk : Pool.valid k) (hst : (s.conns k).st = .connected) (e : TEnv) (he : e.starts = true) (b : Buf) (ty : SecType)
    (flag : UInt8) (channel : UInt32) (payload : List UInt8) (hn : payload.length ≤ 4060)
    (hr : receive (s.conns k).opened e.rx (s.conns k).rx = .ok (.done, b)) (hb : HoldsChunk b (chunk ty flag channel payload))
    (hty : ty = .opn ∨ ty ≠ .invalid ∧ (s.conns k).assoc = some channel) :
    ∃ s', next s e (.linkData k) = .ok s' ∧ s'.conns k = { (s.conns k) with
        rx := (b.skip 12).reset, armed := true
        log := (s.conns k).log ++ [.up (upOf ty channel flag (payload ++ memRead b.packet b.head 12))] } ∧
      ∀ j, j ≠ k → s'.conns j = s.conns j := by
  have hlive := reach_live h hk (by rw [hst]; simp)
  have hl := hlive.choose_spec.2.2.2.2
  have hd := (holds_decodes hb (by omega)).1
  have hrun := onData_run hst hl.link hr hd
  have hup := handUp_holds hb hn
  let s1 : Srv := (s.set k { (s.conns k) with rx := b }).set k { (s.conns k) with rx := b.skip 12 }
  have h1 : s1.conns k = { (s.conns k) with rx := b.skip 12 } := by simp [s1, Srv.set]
  have h1r : (s1.conns k).rx = b.skip 12 := by rw [h1]
  have h1a : (s1.conns k).assoc = (s.conns k).assoc := by rw [h1]
  let d := payload ++ memRead b.packet b.head 12
  let t2 : Tcp := { (s1.conns k) with log := (s1.conns k).log ++ [.up (upOf ty channel flag d)] }
  have hf : forward k (secType b) (headerOf ty flag channel payload.length) s1 = (.ok .done, s1.set k t2) := by
    rw [holds_secType hb]
    simp only [forward, bind_run, self, andThen]
    cases ty with
    | msg =>
      simp only [h1a, (show (headerOf .msg flag channel payload.length).secureChannelId = channel from rfl),
        if_pos (hty.resolve_left (by simp)).2, bind_run, h1r, hup, lift, andThen]
      rfl
    | opn => simp only [bind_run, h1r, hup, lift, andThen]; rfl
    | clo =>
      simp only [h1a, (show (headerOf .clo flag channel payload.length).secureChannelId = channel from rfl),
        if_pos (hty.resolve_left (by simp)).2, bind_run, h1r, hup, lift, andThen]
      rfl
    | invalid => rcases hty with h | h <;> simp at h
  have htm : t2.timer = true := by show (s1.conns k).timer = true; rw [h1]; exact hl.timer
  let t3 : Tcp := { t2 with armed := true }
  let t4 : Tcp := { t3 with rx := t3.rx.reset }
  have hst2 : startTimer k e (s1.set k t2) = (.ok (), (s1.set k t2).set k t3) := by
    simp only [startTimer, bind_run, self, andThen]
    have : ((s1.set k t2).conns k) = t2 := by simp [Srv.set]
    rw [this, if_pos htm, if_pos he]
    simp only [conn, SM.modify, this]
    rfl
  refine ⟨((s1.set k t2).set k t3).set k t4, ?_, ?_, ?_⟩
  · show settle (onData k e s) = _
    rw [hrun]
    show settle (andThen (forward k (secType b) (headerOf ty flag channel payload.length) s1) _) = _
    rw [hf]
    show settle (andThen (startTimer k e (s1.set k t2)) _) = _
    rw [hst2]
    simp only [andThen, receivePreaction, conn, SM.modify]
    have : (((s1.set k t2).set k t3).conns k) = t3 := by simp [Srv.set]
    rw [this]
    rfl
  · simp [Srv.set, t4, t3, t2, h1, d]
  · intro j hj
    simp [Srv.set, hj, s1]

/-- C46 (`_partial`: the layer above gets the payload followed by 12 more bytes, which are whatever the receive buffer
holds behind the chunk): a complete chunk of the own channel, or an OPN chunk, is handed to the layer above with its own
channel id, flag and payload at the front, and nothing else is done. -/
theorem C46_transport_partial (m : Nat → Mem) (evs : List (TEnv × TEv)) (s : Srv) (h : Srv.Reach m evs s) (k : Nat)
    (hk : Pool.valid k) (hst : (s.conns k).st = .connected) (e : TEnv) (he : e.starts = true) (b : Buf) (ty : SecType)
    (flag : UInt8) (channel : UInt32) (payload : List UInt8) (hn : payload.length ≤ 4060)
    (hr : receive (s.conns k).opened e.rx (s.conns k).rx = .ok (.done, b)) (hb : HoldsChunk b (chunk ty flag channel payload))
    (hty : ty = .opn ∨ ty ≠ .invalid ∧ (s.conns k).assoc = some channel) :
    ∃ s' extra, next s e (.linkData k) = .ok s' ∧ extra.length = 12 ∧
      (s'.conns k).log = (s.conns k).log ++ [.up (upOf ty channel flag (payload ++ extra))] ∧
      (s'.conns k).st = .connected ∧ (s'.conns k).armed = true ∧ (s'.conns k).rx.size = 0 ∧
      ∀ j, j ≠ k → s'.conns j = s.conns j := by
  obtain ⟨s', h1, h2, h3⟩ := chunk_run m evs s h k hk hst e he b ty flag channel payload hn hr hb hty
  refine ⟨s', memRead b.packet b.head 12, h1, ?_, ?_, ?_, ?_, ?_, h3⟩
  · rw [MsgStorage.length_memRead]
  · rw [h2]
  · rw [h2]
    exact hst
  · rw [h2]
  · rw [h2]
    simp [Buf.reset, Buf.size]

/-- What an answer to a message does: it is written. -/
theorem send_run (m : Nat → Mem) (evs : List (TEnv × TEv)) (s : Srv) (h : Srv.Reach m evs s) (k : Nat) (hk : Pool.valid k)
    (hst : (s.conns k).st = .connected) (ho : (s.conns k).opened = true) (e : TEnv) (he : e.writes = true) (flag : UInt8)
    (channel : UInt32) (ha : (s.conns k).assoc = some channel) (d : List UInt8) (hd : d.length ≤ 4084) :
    ∃ s', next s e (.down k (.sendReq channel flag d)) = .ok s' ∧ s'.conns k = { (s.conns k) with
        log := (s.conns k).log ++ [.sent (chunk .msg flag channel d)] } ∧ ∀ j, j ≠ k → s'.conns j = s.conns j := by
  have hl := (reach_live h hk (by rw [hst]; simp)).choose_spec.2.2.2.2
  refine ⟨s.set k { (s.conns k) with log := (s.conns k).log ++ [.sent (chunk .msg flag channel d)] }, ?_, by simp [Srv.set],
    fun j hj => by simp [Srv.set, hj]⟩
  have : event e (.down k (.sendReq channel flag d)) s =
      (.ok (), s.set k { (s.conns k) with log := (s.conns k).log ++ [.sent (chunk .msg flag channel d)] }) := by
    show (if Pool.valid k then onReceive k e _ else undefined) s = _
    rw [if_pos hk]
    simp only [onReceive, bind_run, self, andThen, hst, receiveSendReq, if_pos ha, sendSecured, lift,
      C45_secured garbage _ _ _ flag channel d hd, linkSend, hl.link, ho, he, Bool.and_self, if_true, note, conn, SM.modify, answered]
    rfl
  show settle (event e _ s) = _
  rw [this]
  rfl

/-- What an answer to an open request does: the channel is assigned and the answer written. -/
theorem open_run (m : Nat → Mem) (evs : List (TEnv × TEv)) (s : Srv) (h : Srv.Reach m evs s) (k : Nat) (hk : Pool.valid k)
    (hst : (s.conns k).st = .connected) (ho : (s.conns k).opened = true) (e : TEnv) (he : e.writes = true) (flag : UInt8)
    (channel : UInt32) (d : List UInt8) (hd : d.length ≤ 4084) :
    ∃ s', next s e (.down k (.openRsp channel flag d)) = .ok s' ∧ s'.conns k = { (s.conns k) with
        assoc := some channel, log := (s.conns k).log ++ [.assigned channel, .sent (chunk .opn flag channel d)] } ∧
      ∀ j, j ≠ k → s'.conns j = s.conns j := by
  have hl := (reach_live h hk (by rw [hst]; simp)).choose_spec.2.2.2.2
  refine ⟨s.set k { (s.conns k) with assoc := some channel, log := (s.conns k).log ++ [.assigned channel, .sent (chunk .opn flag channel d)] },
    ?_, by simp [Srv.set], fun j hj => by simp [Srv.set, hj]⟩
  have : event e (.down k (.openRsp channel flag d)) s =
      (.ok (), s.set k { (s.conns k) with
        assoc := some channel, log := (s.conns k).log ++ [.assigned channel, .sent (chunk .opn flag channel d)] }) := by
    show (if Pool.valid k then onReceive k e _ else undefined) s = _
    rw [if_pos hk]
    simp only [onReceive, bind_run, self, andThen, hst, receiveOpenRsp, sendSecured, lift,
      C45_secured garbage _ _ _ flag channel d hd, linkSend, Srv.set, hl.link, ho, he, Bool.and_self, if_true, note, conn, SM.modify, answered]
    refine congrArg (Prod.mk _) ?_
    simp only [chunk, letters, Srv.mk.injEq, true_and]
    funext i
    by_cases hi : i = k <;> simp [hi]
  show settle (event e _ s) = _
  rw [this]
  rfl

/-- C35: a complete MSG or CLO chunk of another channel, or one with unknown letters, ends the connection. -/
theorem C35_foreign_ends (m : Nat → Mem) (evs : List (TEnv × TEv)) (s : Srv) (h : Srv.Reach m evs s) (k : Nat)
    (hk : Pool.valid k) (hst : (s.conns k).st = .connected) (e : TEnv) (b : Buf) (ty : SecType)
    (flag : UInt8) (channel : UInt32) (payload : List UInt8) (hn : payload.length ≤ 4084)
    (hr : receive (s.conns k).opened e.rx (s.conns k).rx = .ok (.done, b)) (hb : HoldsChunk b (chunk ty flag channel payload))
    (hty : ty ≠ .opn) (hf : ty ≠ .invalid → (s.conns k).assoc ≠ some channel) :
    ∃ s', next s e (.linkData k) = .ok s' ∧ (s'.conns k).st = .init ∧ (s'.conns k).link = false ∧
      (s'.conns k).log = (s.conns k).log ++ farewell (s.conns k).assoc ++ [.released] ∧
      ∀ j, j ≠ k → s'.conns j = s.conns j :=
  C35_foreign_chunk_ends m evs s h k hk hst e b _ _ hr (holds_decodes hb hn).1 (by rw [holds_secType hb]; exact hty)
    (by rw [holds_secType hb]; exact hf)

/-! ## Concrete runs -/

/-- Everything works. -/
def calm : TEnv := { linkFree := true, accepts := true, timerFree := true, starts := true, writes := true, rx := .na }

instance (s : Srv) (v : TEv) : Decidable (Possible s v) := by
  cases v <;> unfold Possible <;> unfold Pool.valid <;> infer_instance

/-- A history, step by step. -/
def run (s : Srv) : List (TEnv × TEv) → Exec Srv
  | [] => .ok s
  | (e, v) :: l => if Possible s v then next s e v >>= fun s' => run s' l else .throws

theorem run_reach {m : Nat → Mem} {pre evs : List (TEnv × TEv)} {s s' : Srv} (h : Srv.Reach m pre s)
    (hr : run s evs = .ok s') : Srv.Reach m (pre ++ evs) s' := by
  induction evs generalizing pre s with
  | nil =>
    injection hr with hr
    rw [List.append_nil, ← hr]
    exact h
  | cons x l ih =>
    obtain ⟨e, v⟩ := x
    rw [run] at hr
    by_cases hp : Possible s v
    · rw [if_pos hp] at hr
      obtain ⟨s1, h1, h2⟩ := Exec.bind_eq_ok.mp hr
      have := ih (.step h hp h1) h2
      rw [List.append_assoc] at this
      exact this
    · rw [if_neg hp] at hr
      cases hr

/-- State, link, timer, channel, log of a connection and the number of free identifiers. -/
structure View where
  st : TSt
  link : Bool
  timer : Bool
  assoc : Option UInt32
  log : List TAct
  free : Nat
deriving DecidableEq, Repr

def view (s : Srv) (k : Nat) : View :=
  ⟨(s.conns k).st, (s.conns k).link, (s.conns k).timer, (s.conns k).assoc, (s.conns k).log, s.ids.len⟩

def observe (k : Nat) (evs : List (TEnv × TEv)) : Exec View := do
  let s ← Srv.create fun _ => garbage
  let s' ← run s evs
  pure (view s' k)

theorem observe_reach {k : Nat} {evs : List (TEnv × TEv)} {x : View} (h : observe k evs = .ok x) :
    ∃ s, Srv.Reach (fun _ => garbage) evs s ∧ view s k = x := by
  obtain ⟨s, h1, h2⟩ := Exec.bind_eq_ok.mp h
  obtain ⟨s', h3, h4⟩ := Exec.bind_eq_ok.mp h2
  injection h4 with h4
  exact ⟨s', run_reach (.create h1) h3, h4⟩

/-- A Hello, then an OPN chunk that the channel layer answers with channel 7, then a MSG chunk of this channel. -/
def talk : List (TEnv × TEv) := [(calm, .accept), ({ calm with rx := .ok helloFrame }, .linkData 1),
  ({ calm with rx := .ok (chunk .opn 0x46 0 [1, 2, 3]) }, .linkData 1), (calm, .down 1 (.openRsp 7 0x46 [4, 5]))]

def talkLog : List TAct := [.accepted, .sent ackFrame,
  .up (.open 0 0x46 ([1, 2, 3] ++ [0, 0, 0, 1, 0, 0, 0, 1, 0, 0x88, 0x13, 0])), .assigned 7, .sent (chunk .opn 0x46 7 [4, 5])]

/-- The connection of `talk` is connected and belongs to channel 7: the hypotheses of the theorems above can be met. -/
theorem talk_runs : observe 1 talk = .ok ⟨.connected, true, true, some 7, talkLog, 31⟩ := by decide +kernel

example : ∃ s, Srv.Reach (fun _ => garbage) talk s ∧ (s.conns 1).st = .connected ∧ (s.conns 1).assoc = some 7 ∧
    (s.conns 1).armed = true := by
  obtain ⟨s, h, hv⟩ := observe_reach talk_runs
  have h1 : (s.conns 1).st = .connected := congrArg View.st hv
  have h2 : (s.conns 1).assoc = some 7 := congrArg View.assoc hv
  refine ⟨s, h, h1, h2, C36_deadline_partial _ talk s h ?_ 1 (by decide) (by rw [h1]; simp)⟩
  intro x hx
  simp only [talk, List.mem_cons, List.not_mem_nil, or_false] at hx
  rcases hx with e | e | e | e <;> subst e <;> exact ⟨rfl, rfl⟩

/-- A MSG chunk of the own channel in two segments is forwarded, the answer is sent, the client closes the channel, and
the channel layer asks for the end. -/
example : observe 1 (talk ++ [({ calm with rx := .ok ((chunk .msg 0x46 7 [8]).take 5) }, .linkData 1),
    ({ calm with rx := .ok ((chunk .msg 0x46 7 [8]).drop 5) }, .linkData 1), (calm, .down 1 (.sendReq 7 0x46 [9])),
    ({ calm with rx := .ok (chunk .clo 0x46 7 [1]) }, .linkData 1), (calm, .down 1 (.closeRsp 7 0x46 [2])),
    (calm, .down 1 .releaseReq)]) = .ok ⟨.init, false, false, none, talkLog ++
      [.up (.message 7 0x46 ([8] ++ [2, 3, 0, 0, 0, 1, 0, 0, 0, 1, 0, 0x88])), .sent (chunk .msg 0x46 7 [9]),
       .up (.close 7 0x46 ([1] ++ [2, 3, 0, 0, 0, 1, 0, 0, 0, 1, 0, 0x88])), .sent (chunk .clo 0x46 7 [2]), .asked, .released], 32⟩ := by
  decide +kernel

/-- A MSG chunk of channel 8, an answer of channel 8, and the timer. -/
example : observe 1 (talk ++ [({ calm with rx := .ok (chunk .msg 0x46 8 [8]) }, .linkData 1)]) =
    .ok ⟨.init, false, false, none, talkLog ++ [.up (.released 7), .released], 32⟩ := by decide +kernel

example : observe 1 (talk ++ [(calm, .down 1 (.sendReq 8 0x46 [8]))]) =
    .ok ⟨.init, false, false, none, talkLog ++ [.up (.released 7), .released], 32⟩ := by decide +kernel

example : observe 1 (talk ++ [(calm, .timer 1)]) =
    .ok ⟨.init, false, false, none, talkLog ++ [.up (.released 7), .released], 32⟩ := by decide +kernel

/-- C46: three bytes behind the header of the chunk, fifteen bytes in the hands of the layer above; the twelve others
are bytes 15 to 26 of the Hello message that stood in the buffer before. -/
theorem C46_transport_violated : ∃ s, Srv.Reach (fun _ => garbage) talk s ∧
    .up (.open 0 0x46 ([1, 2, 3] ++ (helloFrame.drop 15).take 12)) ∈ (s.conns 1).log := by
  obtain ⟨s, h, hv⟩ := observe_reach talk_runs
  have hl : (s.conns 1).log = talkLog := congrArg View.log hv
  exact ⟨s, h, by rw [hl]; decide +kernel⟩

/-- C36: when no timer is left, the accepted link and the identifier stay taken by a connection in its initial state. -/
theorem C36_timer_exhausted_violated : ∃ s, Srv.Reach (fun _ => garbage) [({ calm with timerFree := false }, .accept)] s ∧
    (s.conns 1).st = .init ∧ (s.conns 1).link = true ∧ s.ids.len = 31 := by
  have ho : observe 1 [({ calm with timerFree := false }, .accept)] = .ok ⟨.init, true, false, none, [], 31⟩ := by
    decide +kernel
  obtain ⟨s, h, hv⟩ := observe_reach ho
  exact ⟨s, h, congrArg View.st hv, congrArg View.link hv, congrArg View.free hv⟩

/-- C36: a second OPN chunk makes the connection forget its first channel: channel 7 is never told about the end. -/
theorem C36_second_open_violated : observe 1 (talk ++ [({ calm with rx := .ok (chunk .opn 0x46 7 [1]) }, .linkData 1),
      (calm, .down 1 (.openRsp 9 0x46 [4])), (calm, .timer 1)]) =
    .ok ⟨.init, false, false, none, talkLog ++ [.up (.open 7 0x46 ([1] ++ [2, 3, 0, 0, 0, 1, 0, 0, 0, 1, 0, 0x88])), .assigned 9,
      .sent (chunk .opn 0x46 9 [4]), .up (.released 9), .released], 32⟩ := by decide +kernel

/-- C36: an answer to an OPN request that arrives after the end of the connection is dropped: the new channel 7 is never
told that its connection is gone. -/
theorem C36_late_answer_violated : observe 1 (talk.take 3 ++ [(calm, .timer 1), (calm, .down 1 (.openRsp 7 0x46 [4, 5]))]) =
    .ok ⟨.init, false, false, none, talkLog.take 3 ++ [.released], 32⟩ := by decide +kernel

/-- C35: an answer to an OPN request is accepted although the peer has sent no such request (it may belong to an earlier
owner of the identifier): from then on the connection serves the channel it names. -/
theorem C35_unasked_violated : observe 1 (talk.take 2 ++ [(calm, .down 1 (.openRsp 9 0x46 [4])),
      ({ calm with rx := .ok (chunk .msg 0x46 9 [8]) }, .linkData 1)]) =
    .ok ⟨.connected, true, true, some 9, [.accepted, .sent ackFrame, .assigned 9, .sent (chunk .opn 0x46 9 [4]),
      .up (.message 9 0x46 ([8] ++ [0, 1, 0, 0, 0, 1, 0, 0, 0, 1, 0, 0x88]))], 31⟩ := by decide +kernel

/-! ### The theorems at concrete states -/

theorem talk_stands : ∃ s, Srv.Reach (fun _ => garbage) talk s ∧ view s 1 = ⟨.connected, true, true, some 7, talkLog, 31⟩ ∧
    (s.conns 1).opened = true ∧ (s.conns 1).armed = true ∧ (s.conns 1).rx.tail = 0 ∧ (s.conns 1).rx.head = 0 := by
  have ho : (do
      let s ← Srv.create fun _ => garbage
      let s' ← run s talk
      pure (view s' 1, (s'.conns 1).opened, (s'.conns 1).armed, (s'.conns 1).rx.tail, (s'.conns 1).rx.head)) =
      Exec.ok ((⟨.connected, true, true, some 7, talkLog, 31⟩ : View), true, true, 0, 0) := by decide +kernel
  obtain ⟨s, h1, h2⟩ := Exec.bind_eq_ok.mp ho
  obtain ⟨s', h3, h4⟩ := Exec.bind_eq_ok.mp h2
  injection h4 with h4
  simp only [Prod.mk.injEq] at h4
  exact ⟨s', run_reach (.create h1) h3, h4⟩

/-- A chunk that arrives at an empty buffer in one piece. -/
theorem arrives {b : Buf} {f : List UInt8} (ht : b.tail = 0) (hh : b.head = 0) (hf : IsChunk f) (hl : f.length ≤ 4096) (hn : f ≠ []) :
    ∃ b', receive true (.ok f) b = .ok (.done, b') ∧ HoldsChunk b' f := by
  obtain ⟨b', h1, h2, h3⟩ := C30_framing_partial b [] f ht hh hf hn (by decide) hl
  simp only [List.nil_append, List.map_cons, List.map_nil, feed, List.length_nil, List.replicate_zero, List.flatten_nil] at h1 h3
  obtain ⟨⟨r, b1⟩, h4, h5⟩ := Exec.bind_eq_ok.mp h1
  simp only [Exec.ok_bind, Exec.pure_eq, Exec.ok.injEq, Prod.mk.injEq, List.cons.injEq] at h5
  obtain ⟨⟨h5, -⟩, h6⟩ := h5
  subst h5 h6
  exact ⟨_, h4, h2, by rw [← h3, Buf.bytes, h2]; rfl⟩

/-- What C35 and C36 say about every history, for the history `talk`: the last entry of the log is of channel 7; one live connection, whose identifier is not free. -/
example : ∃ s free, Srv.Reach (fun _ => garbage) talk s ∧ Owned (owner (talkLog.take 4)) (.sent (chunk .opn 0x46 7 [4, 5])) ∧
    Life.run .idle talkLog = some (.live (some 7)) ∧ Queue.Holds s.ids free ∧ 1 ∉ free := by
  obtain ⟨s, h, hv, -⟩ := talk_stands
  have hl : (s.conns 1).log = talkLog := congrArg View.log hv
  have hs : (s.conns 1).st = .connected := congrArg View.st hv
  have ha : (s.conns 1).assoc = some 7 := congrArg View.assoc hv
  have hlife := C36_life _ talk s h 1 (by decide)
  rw [hl, hs, ha] at hlife
  have hev : ∀ x ∈ talk, x.1.timerFree = true := by decide +kernel
  obtain ⟨free, h1, _, h2⟩ := C36_resources_partial _ talk s h hev

  exact ⟨s, free, h, C35_own_traffic _ talk s h 1 (by decide) _ [] _ (by rw [hl]; rfl), hlife, h1,
    ((h2 1 (by decide)).2 (by rw [hs]; decide)).1⟩

/-- The connection of `talk` ends: by a chunk of channel 8, by an answer of channel 8, by its timer, by a read error. -/
example : ∃ s, Srv.Reach (fun _ => garbage) talk s ∧ ∀ x ∈ [({ calm with rx := .ok (chunk .msg 0x46 8 [8]) }, .linkData 1),
      (calm, .down 1 (.sendReq 8 0x46 [8])), (calm, .timer 1), ({ calm with rx := .error }, .linkData 1)],
    ∃ s', next s x.1 x.2 = .ok s' ∧ (s'.conns 1).log = talkLog ++ [.up (.released 7), .released] := by
  obtain ⟨s, h, hv, ho, ha, ht, hh⟩ := talk_stands
  have hl : (s.conns 1).log = talkLog := congrArg View.log hv
  have hs : (s.conns 1).st = .connected := congrArg View.st hv
  have hc : (s.conns 1).assoc = some 7 := congrArg View.assoc hv
  refine ⟨s, h, fun x hx => ?_⟩
  simp only [List.mem_cons, List.not_mem_nil, or_false] at hx
  rcases hx with rfl | rfl | rfl | rfl
  · obtain ⟨b, h1, h2⟩ := arrives ht hh (f := chunk .msg 0x46 8 [8]) (by decide) (by decide) (by decide)
    obtain ⟨s', h3, _, _, h4, _⟩ := C35_foreign_ends _ talk s h 1 (by decide) hs { calm with rx := .ok (chunk .msg 0x46 8 [8]) } b .msg 0x46 8 [8] (by decide)
      (by rw [ho]; exact h1) h2 (by decide) (by rw [hc]; decide)
    obtain ⟨_, _⟩ := C35_foreign_chunk_ends _ talk s h 1 (by decide) hs { calm with rx := .ok (chunk .msg 0x46 8 [8]) } b _ _ (by rw [ho]; exact h1)
      (holds_decodes h2 (by decide)).1 (by rw [holds_secType h2]; decide) (by rw [hc]; intro _; decide)
    exact ⟨s', h3, by rw [h4, hl, hc]; rfl⟩
  · obtain ⟨s', h3, _, _, h4, _⟩ := C35_foreign_answer_ends _ talk s h 1 (by decide) hs calm 8 0x46 [8] (by rw [hc]; decide) _ (.inl rfl)
    exact ⟨s', h3, by rw [h4, hl, hc]; rfl⟩
  · obtain ⟨s', h3, _, _, _, h4, _⟩ := C36_timeout_ends _ talk s h 1 (by decide) ha calm
    exact ⟨s', h3, by rw [h4, hl, hc]; rfl⟩
  · obtain ⟨s', h3, _, _, _, h4, _⟩ := C36_read_error_ends _ talk s h 1 (by decide) hs { calm with rx := .error } _ (receive_error _ _)
    exact ⟨s', h3, by rw [h4, hl, hc]; rfl⟩

/-- A chunk of channel 7 is handed up; the channel component ends the connection. -/
example : ∃ s s' s'' extra, Srv.Reach (fun _ => garbage) talk s ∧
    next s { calm with rx := .ok (chunk .msg 0x46 7 [8]) } (.linkData 1) = .ok s' ∧ extra.length = 12 ∧
    (s'.conns 1).log = talkLog ++ [.up (.message 7 0x46 ([8] ++ extra))] ∧
    next s calm (.down 1 .releaseReq) = .ok s'' ∧ (s''.conns 1).log = talkLog ++ [.asked, .released] := by
  obtain ⟨s, h, hv, ho, ha, ht, hh⟩ := talk_stands
  have hl : (s.conns 1).log = talkLog := congrArg View.log hv
  have hs : (s.conns 1).st = .connected := congrArg View.st hv
  have hc : (s.conns 1).assoc = some 7 := congrArg View.assoc hv
  obtain ⟨b, h1, h2⟩ := arrives ht hh (f := chunk .msg 0x46 7 [8]) (by decide) (by decide) (by decide)
  obtain ⟨s', extra, h3, h4, h5, -⟩ := C46_transport_partial _ talk s h 1 (by decide) hs { calm with rx := .ok (chunk .msg 0x46 7 [8]) } rfl b .msg 0x46 7 [8]
    (by decide) (by rw [ho]; exact h1) h2 (.inr ⟨by decide, hc⟩)
  obtain ⟨s'', h6, _, _, _, h7, _⟩ := C36_request_ends _ talk s h 1 (by decide) hs calm
  exact ⟨s, s', s'', extra, h, h3, h4, by rw [h5, hl]; rfl, h6, by rw [h7, hl]⟩

end Uscada.Ua.Transport
