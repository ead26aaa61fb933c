import Verif.UaSurvive
/-!
# C95: the library connections shake hands before they report success

What must have happened before a `ClientConnection` or a `ServerConnection` (common/ua/protocols/connection) tells its user that it is connected,
and that both become connected when they are connected to each other.  Nothing is assumed about the user, the system calls or
the peer in the first part.
-/

namespace Uscada.Ua

open CM
open Modbus (Rx)

variable {r : Role} {e : Env}

/-! ## Specification -/

/-- The three letters at the beginning of the message a connection waits for, OPC 10000-6, 7.1.2.2: a client waits for `ACK`, a server for `HEL`. -/
def awaited : Role → List UInt8
  | .client => [0x41, 0x43, 0x4B]
  | .server => [0x48, 0x45, 0x4C]

/-- Bytes of a ReverseHello chunk with empty strings. -/
def reverseFrame : List UInt8 := [0x52, 0x48, 0x45, 0x46, 16, 0, 0, 0, 0xFF, 0xFF, 0xFF, 0xFF, 0xFF, 0xFF, 0xFF, 0xFF]

/-- What must stand in the log of a connection before success: a client has said hello since the last attempt was begun, a server has just
acknowledged. -/
def Primed : Role → List Act → Prop
  | .client, l => ∃ a b d, l = a ++ .attempt :: (b ++ .sent helloFrame :: d) ∧ .attempt ∉ b ∧ .attempt ∉ d
  | .server, l => ∃ a, l = a ++ [.sent ackFrame]

/-- Every success that was reported was primed. -/
def Good (r : Role) (l : List Act) : Prop := ∀ l1 l2, l = l1 ++ .note .connected :: l2 → Primed r l1

/-! ## Histories -/

/-- An attempt was begun, and none since. -/
def Begun (l : List Act) : Prop := ∃ a b, l = a ++ .attempt :: b ∧ .attempt ∉ b

theorem Good.nil : Good r [] := by
  intro l1 l2 h
  cases l1 <;> cases h

theorem append_split {α : Type} {l l1 l2 : List α} {a x : α} (h : l ++ [a] = l1 ++ x :: l2) :
    (l2 = [] ∧ a = x ∧ l = l1) ∨ ∃ l3, l = l1 ++ x :: l3 := by
  rcases List.eq_nil_or_concat l2 with rfl | ⟨l3, y, rfl⟩
  · obtain ⟨h1, h2⟩ := List.append_inj' h rfl
    injection h2 with h2
    exact .inl ⟨rfl, h2, h1⟩
  · refine .inr ⟨l3, ?_⟩
    have : l ++ [a] = (l1 ++ x :: l3) ++ [y] := by simpa using h
    exact (List.append_inj' this rfl).1

theorem Good.add {l : List Act} {a : Act} (h : Good r l) (ha : a = .note .connected → Primed r l) : Good r (l ++ [a]) := by
  intro l1 l2 hl
  rcases append_split hl with ⟨rfl, rfl, rfl⟩ | ⟨l3, h3⟩
  · exact ha rfl
  · exact h l1 l3 h3

theorem Begun.add {l : List Act} {a : Act} (h : Begun l) (ha : a ≠ .attempt) : Begun (l ++ [a]) := by
  obtain ⟨x, y, rfl, hy⟩ := h
  refine ⟨x, y ++ [a], by simp, ?_⟩
  simp only [List.mem_append, List.mem_singleton, not_or]
  exact ⟨hy, fun h => ha h.symm⟩

theorem Begun.primed {l : List Act} (h : Begun l) : Primed .client (l ++ [.sent helloFrame]) := by
  obtain ⟨x, y, rfl, hy⟩ := h
  exact ⟨x, y, [], by simp, hy, by simp⟩

theorem Primed.add {l : List Act} {a : Act} (h : Primed .client l) (ha : a ≠ .attempt) : Primed .client (l ++ [a]) := by
  obtain ⟨x, y, z, rfl, hy, hz⟩ := h
  refine ⟨x, y, z ++ [a], by simp, hy, ?_⟩
  simp only [List.mem_append, List.mem_singleton, not_or]
  exact ⟨hz, fun h => ha h.symm⟩

/-- The invariant. -/
structure Shaken (r : Role) (c : Conn) : Prop where
  good : Good r c.log
  begun : r = .client → c.st = .connecting → Begun c.log
  primed : r = .client → c.st = .handshake → Primed .client c.log

theorem Shaken.same {c c' : Conn} (h : Shaken r c) (hs : c'.st = c.st) (hl : c'.log = c.log) : Shaken r c' :=
  ⟨by rw [hl]; exact h.good, by rw [hl, hs]; exact h.begun, by rw [hl, hs]; exact h.primed⟩

theorem Shaken.calm {c c' : Conn} (h : Shaken r c) (hs : c'.st = .init ∨ c'.st = .connected) (hl : c'.log = c.log) : Shaken r c' := by
  refine ⟨by rw [hl]; exact h.good, fun _ hc => ?_, fun _ hc => ?_⟩ <;> rcases hs with hs | hs <;> rw [hs] at hc <;> cases hc

theorem Shaken.add {c c' : Conn} {a : Act} (h : Shaken r c) (ha : a ≠ .attempt) (hn : a = .note .connected → Primed r c.log) (hs : c'.st = c.st)
    (hl : c'.log = c.log ++ [a]) : Shaken r c' :=
  ⟨by rw [hl]; exact h.good.add hn, fun hr hc => by rw [hl]; exact (h.begun hr (hs ▸ hc)).add ha,
    fun hr hc => by rw [hl]; exact (h.primed hr (hs ▸ hc)).add ha⟩

/-- Operations that change neither state nor log. -/
theorem tri_same {α : Type} {P : Conn → Prop} {m : CM α} (hm : ∀ c x, m c = x → x.2.st = c.st ∧ x.2.log = c.log)
    (hP : ∀ c c', P c → c'.st = c.st → c'.log = c.log → P c') : Tri P P m (fun _ => P) := by
  intro c hc
  have := hm c _ rfl
  match h : m c with
  | (.ok a, c') => rw [h] at this; exact hP _ _ hc this.1 this.2
  | (.throws, c') => rw [h] at this; exact hP _ _ hc this.1 this.2
  | (.abort, c') => exact trivial
  | (.ub, c') => exact trivial

theorem stopTimer_same (c : Conn) (x) (h : stopTimer c = x) : x.2.st = c.st ∧ x.2.log = c.log := by
  subst h; unfold stopTimer; split <;> exact ⟨rfl, rfl⟩

theorem startTimer_same (c : Conn) (x) (h : startTimer e c = x) : x.2.st = c.st ∧ x.2.log = c.log := by
  subst h; unfold startTimer; repeat' split
  all_goals exact ⟨rfl, rfl⟩

theorem closeLink_same (c : Conn) (x) (h : closeLink c = x) : x.2.st = c.st ∧ x.2.log = c.log := by
  subst h; unfold closeLink; split <;> exact ⟨rfl, rfl⟩

theorem connectLink_same (c : Conn) (x) (h : connectLink e c = x) : x.2.st = c.st ∧ x.2.log = c.log := by
  subst h; unfold connectLink; repeat' split
  all_goals exact ⟨rfl, rfl⟩

theorem allocLink_same (c : Conn) (x) (h : allocLink e c = x) : x.2.st = c.st ∧ x.2.log = c.log := by
  subst h; unfold allocLink; split <;> exact ⟨rfl, rfl⟩

theorem allocTimer_same (c : Conn) (x) (h : allocTimer e c = x) : x.2.st = c.st ∧ x.2.log = c.log := by
  subst h; unfold allocTimer; split <;> exact ⟨rfl, rfl⟩

theorem receiveRx_same (c : Conn) (x) (h : receiveRx e c = x) : x.2.st = c.st ∧ x.2.log = c.log := by
  subst h; unfold receiveRx; repeat' split
  all_goals exact ⟨rfl, rfl⟩

theorem decodeHandshake_same (c : Conn) (x) (h : decodeHandshake r c = x) : x.2.st = c.st ∧ x.2.log = c.log := by
  subst h; unfold decodeHandshake; split <;> exact ⟨rfl, rfl⟩

theorem exit_same {s : CSt} (c : Conn) (x) (h : exit s c = x) : x.2.st = c.st ∧ x.2.log = c.log := by
  cases s with
  | init => subst h; exact ⟨rfl, rfl⟩
  | _ => exact stopTimer_same c x h

/-- A property of the log alone. -/
def Logs (P : List Act → Prop) (c : Conn) : Prop := P c.log

theorem logs_same {P : List Act → Prop} {c c' : Conn} (h : Logs P c) (_ : c'.st = c.st) (hl : c'.log = c.log) : Logs P c' := by
  unfold Logs at *
  rwa [hl]

theorem transit_tri {P R : Conn → Prop} {s : CSt} {enter : CM Unit} (hP : ∀ c c', P c → c'.st = c.st → c'.log = c.log → P c')
    (hst : ∀ c, P c → c.st = s → R c) (hto : ∀ c, P c → R { c with st := s }) (ht : Tri R R enter (fun _ => R)) (hPR : ∀ c, P c → c.st ≠ s → R c) :
    Tri R P (transit s enter) (fun _ => R) := by
  refine Tri.get fun c hc => ?_
  by_cases hs : c.st = s
  · rw [if_pos hs]
    exact hst c hc hs
  · rw [if_neg hs]
    have h1 := exit_same (s := c.st) c _ rfl
    rw [bind_run]
    match h : exit c.st c with
    | (.ok a, c') =>
      rw [h] at h1
      exact ht _ (hto _ (hP _ _ hc h1.1 h1.2))
    | (.throws, c') =>
      rw [h] at h1
      exact hPR _ (hP _ _ hc h1.1 h1.2) (by rw [h1.1]; exact hs)
    | (.abort, c') => exact trivial
    | (.ub, c') => exact trivial

theorem shaken_same {α : Type} {m : CM α} (hm : ∀ c x, m c = x → x.2.st = c.st ∧ x.2.log = c.log) : Tri (Shaken r) (Shaken r) m (fun _ => Shaken r) :=
  tri_same hm fun _ _ h hs hl => h.same hs hl

theorem shaken_toInit : Tri (Shaken r) (Shaken r) toInit (fun _ => Shaken r) :=
  transit_tri (fun _ _ h hs hl => h.same hs hl) (fun _ h _ => h) (fun _ h => h.calm (.inl rfl) rfl)
    (Tri.modify fun _ h => h.same rfl rfl) (fun _ h _ => h)

theorem shaken_send (bytes : List UInt8) : Tri (Shaken r) (Shaken r) (send e bytes) (fun _ => Shaken r) := by
  intro c hc
  exact send_post bytes hc (hc.add (by simp) (by simp) rfl rfl)

theorem shaken_userConnect : Tri (Shaken r) (Shaken r) (userConnect e) (fun _ => Shaken r) := by
  refine Tri.get fun c hc => ?_
  match hs : c.st with
  | .init =>
    have key : Tri (Shaken r) (fun c => Shaken r c ∧ c.st = .init) (do
        allocLink e
        allocTimer e
        logAct .attempt
        toConnecting e) (fun _ => Shaken r) := by
      have hsame : ∀ {α : Type} {m : CM α}, (∀ c x, m c = x → x.2.st = c.st ∧ x.2.log = c.log) →
          Tri (Shaken r) (fun c => Shaken r c ∧ c.st = .init) m (fun _ c => Shaken r c ∧ c.st = .init) := by
        intro α m hm c hc
        have := hm c _ rfl
        match h : m c with
        | (.ok a, c') => rw [h] at this; exact ⟨hc.1.same this.1 this.2, this.1.trans hc.2⟩
        | (.throws, c') => rw [h] at this; exact hc.1.same this.1 this.2
        | (.abort, c') => exact trivial
        | (.ub, c') => exact trivial
      refine Tri.bind (hsame allocLink_same) fun _ => Tri.bind (hsame allocTimer_same) fun _ => ?_
      refine Tri.bind (R := fun _ c => Shaken r c ∧ Begun c.log) (Tri.modify fun c h => ?_) fun _ => ?_
      · refine ⟨⟨h.1.good.add (by simp), fun _ hc => ?_, fun _ hc => ?_⟩, ⟨c.log, [], rfl, by simp⟩⟩
        · exact absurd (h.2.symm.trans hc) (by simp)
        · exact absurd (h.2.symm.trans hc) (by simp)
      · refine transit_tri (fun _ _ h hs hl => ⟨h.1.same hs hl, by rw [hl]; exact h.2⟩) (fun _ h _ => h.1) (fun c h => ⟨h.1.good, fun _ _ => h.2, fun _ hc => by cases hc⟩)
          (Tri.bind (shaken_same connectLink_same) fun _ => shaken_same startTimer_same) (fun _ h _ => h.1)
    exact key c ⟨hc, hs⟩
  | .connecting => exact hc
  | .handshake => exact hc
  | .connected => exact hc

theorem shaken_userAccept : Tri (Shaken .server) (Shaken .server) (userAccept e) (fun _ => Shaken .server) := by
  have hany : ∀ c c', Shaken .server c → c'.log = c.log → Shaken .server c' := fun c c' h hl => ⟨by rw [hl]; exact h.good, by simp, by simp⟩
  refine Tri.get fun c hc => ?_
  match hs : c.st with
  | .init =>
    refine Tri.bind (R := fun _ => Shaken .server) (Tri.modify fun c h => h.same rfl rfl) (fun _ => Tri.bind (shaken_same allocTimer_same) fun _ =>
      Tri.bind (R := fun _ => Shaken .server) (Tri.modify fun c h => ⟨h.good.add (by simp), by simp, by simp⟩) fun _ => ?_) c hc
    exact transit_tri (fun _ _ h hs hl => h.same hs hl) (fun _ h _ => h) (fun c h => hany _ _ h rfl)
      (Tri.bind (shaken_same startTimer_same) fun _ => Tri.modify fun c h => h.same rfl rfl) (fun _ h _ => h)
  | .connecting => exact hc
  | .handshake => exact hc
  | .connected => exact hc

theorem shaken_userClose : Tri (Shaken r) (Shaken r) userClose (fun _ => Shaken r) := by
  refine Tri.get fun c hc => ?_
  match hs : c.st with
  | .connected =>
    exact Tri.bind (R := fun _ => Shaken r) (Tri.modify fun c h => h.add (by simp) (by simp) rfl rfl)
      (fun _ => Tri.bind (shaken_same closeLink_same) fun _ => shaken_toInit) c hc
  | .init => exact hc
  | .connecting => exact hc
  | .handshake => exact hc

theorem shaken_call (x : Call) : Tri (Shaken r) (Shaken r) (call r e x) (fun _ => Shaken r) := by
  cases x with
  | connect => exact shaken_userConnect
  | accept =>
    cases r with
    | client => exact Tri.ret fun _ h => h
    | server => exact shaken_userAccept
  | close => exact shaken_userClose
  | send bytes => exact Tri.bind (shaken_send bytes) fun _ => Tri.ret fun _ h => h
  | consume n => exact Tri.modify fun _ h => h.same rfl rfl
  | fail => exact fun _ h => h

theorem shaken_calls (xs : List Call) : Tri (Shaken r) (Shaken r) (calls r e xs) (fun _ => Shaken r) := by
  induction xs with
  | nil => exact Tri.ret fun _ h => h
  | cons x xs ih => exact Tri.bind (shaken_call x) fun _ => ih

theorem shaken_note (n : Note) (hn : n ≠ .connected) (xs : List Call) : Tri (Shaken r) (Shaken r) (do
    logAct (.note n)
    calls r e xs) (fun _ => Shaken r) :=
  Tri.bind (R := fun _ => Shaken r) (Tri.modify fun c h => h.add (by simp) (fun ha => absurd (by injection ha) hn) rfl rfl) fun _ => shaken_calls xs

theorem shaken_report : Tri (Shaken r) (Shaken r) (closeAndReport r e) (fun _ => Shaken r) :=
  Tri.bind (shaken_same closeLink_same) fun _ => Tri.bind (shaken_note .error (by simp) _) fun _ => shaken_toInit

theorem shaken_toHandshake : Tri (Shaken r) (fun c => Shaken r c ∧ (r = .client → Primed .client c.log)) (toHandshake e) (fun _ => Shaken r) :=
  transit_tri (fun _ _ h hs hl => ⟨h.1.same hs hl, by rw [hl]; exact h.2⟩) (fun _ h _ => h.1)
    (fun c h => ⟨h.1.good, fun _ hc => (by cases hc), fun hr _ => h.2 hr⟩)
    (Tri.bind (shaken_same startTimer_same) fun _ => Tri.modify fun c h => h.same rfl rfl) (fun _ h _ => h.1)

theorem shaken_toConnected : Tri (Shaken r) (fun c => Shaken r c ∧ Primed r c.log) (toConnected r e) (fun _ => Shaken r) := by
  refine Tri.get fun c hc => ?_
  by_cases hs : c.st = .connected
  · rw [if_pos hs]
    exact hc.1
  · rw [if_neg hs]
    have key : Tri (Shaken r) (fun c => Shaken r c ∧ Primed r c.log) (do
        exit c.st
        modify fun c => { c with st := .connected }
        (do
          notifyConnected r e
          receivePreaction
          startTimer e)) (fun _ => Shaken r) := by
      refine Tri.bind (R := fun _ c => Shaken r c ∧ Primed r c.log) ?_ fun _ => ?_
      · intro d hd
        have h1 := exit_same (s := c.st) d _ rfl
        match h : exit c.st d with
        | (.ok a, c') => rw [h] at h1; exact ⟨hd.1.same h1.1 h1.2, by rw [h1.2]; exact hd.2⟩
        | (.throws, c') => rw [h] at h1; exact hd.1.same h1.1 h1.2
        | (.abort, c') => exact trivial
        | (.ub, c') => exact trivial
      · refine Tri.bind (R := fun _ c => Shaken r c ∧ Primed r c.log) (Tri.modify fun c h => ⟨h.1.calm (.inr rfl) rfl, h.2⟩) fun _ => ?_
        refine Tri.bind (R := fun _ => Shaken r) ?_ fun _ => Tri.bind (R := fun _ => Shaken r) (Tri.modify fun c h => h.same rfl rfl)
          fun _ => shaken_same startTimer_same
        exact Tri.bind (R := fun _ => Shaken r) (Tri.modify fun c h => h.1.add (by simp) (fun _ => h.2) rfl rfl) fun _ => shaken_calls _
    exact key c hc

theorem sendOpening_client : sendOpening .client e = send e helloFrame := by
  funext c
  unfold sendOpening
  simp only [bind_run, C45_hello, lift, andThen]
  rfl

theorem sendOpening_server : sendOpening .server e = send e reverseFrame := by
  funext c
  unfold sendOpening
  simp only [bind_run, C45_reverseHello, lift, andThen]
  rfl

theorem sendAcknowledge_eq : sendAcknowledge e = send e ackFrame := by
  funext c
  unfold sendAcknowledge
  simp only [bind_run, C45_acknowledge, lift, andThen]
  rfl

theorem shaken_event (v : Ev) : Tri (Shaken r) (Shaken r) (event r e v) (fun _ => Shaken r) := by
  cases v with
  | user x => exact shaken_call x
  | linkConnected =>
    refine Tri.get fun c hc => ?_
    match hs : c.st with
    | .init => exact hc
    | .handshake => exact hc
    | .connected => exact hc
    | .connecting =>
      have hsend : Tri (Shaken r) (fun c => Shaken r c ∧ c.st = .connecting) (sendOpening r e)
          (fun x c => Shaken r c ∧ (x = .done → r = .client → Primed .client c.log)) := by
        intro c hc
        cases r with
        | client =>
          rw [sendOpening_client]
          unfold send
          split
          · split
            · exact ⟨hc.1.add (by simp) (by simp) rfl rfl, fun _ _ => (hc.1.begun rfl hc.2).primed⟩
            · exact ⟨hc.1, by simp⟩
          · exact trivial
        | server =>
          rw [sendOpening_server]
          have := shaken_send (r := .server) (e := e) reverseFrame c hc.1
          match h : send e reverseFrame c with
          | (.ok a, c') => rw [h] at this; exact ⟨this, by simp⟩
          | (.throws, c') => rw [h] at this; exact this
          | (.abort, c') => exact trivial
          | (.ub, c') => exact trivial
      refine Tri.bind hsend (fun x => ?_) c ⟨hc, hs⟩
      cases x with
      | noerror =>
        cases r with
        | client => exact (shaken_note .error (by simp) _).weaken (fun _ h => h.1) fun _ _ h => h
        | server => exact Tri.ret fun _ h => h.1
      | done => exact shaken_toHandshake.weaken (fun _ h => ⟨h.1, h.2 rfl⟩) fun _ _ h => h
      | error => exact shaken_report.weaken (fun _ h => h.1) fun _ _ h => h
  | linkData =>
    refine Tri.get fun c hc => ?_
    match hs : c.st with
    | .init => exact hc
    | .connecting => exact hc
    | .handshake =>
      have hrec : Tri (Shaken r) (fun c => Shaken r c ∧ (r = .client → Primed .client c.log)) (receiveHandshake r e)
          (fun _ c => Shaken r c ∧ (r = .client → Primed .client c.log)) := by
        have hsame : ∀ {α : Type} {m : CM α}, (∀ c x, m c = x → x.2.st = c.st ∧ x.2.log = c.log) →
            Tri (Shaken r) (fun c => Shaken r c ∧ (r = .client → Primed .client c.log)) m (fun _ c => Shaken r c ∧ (r = .client → Primed .client c.log)) := by
          intro α m hm c hc
          have := hm c _ rfl
          match h : m c with
          | (.ok a, c') => rw [h] at this; exact ⟨hc.1.same this.1 this.2, by rw [this.2]; exact hc.2⟩
          | (.throws, c') => rw [h] at this; exact hc.1.same this.1 this.2
          | (.abort, c') => exact trivial
          | (.ub, c') => exact trivial
        refine Tri.bind (hsame receiveRx_same) fun x => ?_
        cases x with
        | noerror => exact Tri.ret fun _ h => h
        | error => exact Tri.ret fun _ h => h
        | done =>
          refine Tri.get fun c hc => ?_
          by_cases h : isHandshake r c.rx = true
          · rw [if_pos h]
            exact Tri.bind (R := fun _ c => Shaken r c ∧ (r = .client → Primed .client c.log)) (hsame decodeHandshake_same) (fun _ => Tri.ret fun _ h => h) c hc
          · rw [if_neg h]
            exact hc
      refine Tri.bind hrec (fun x => ?_) c ⟨hc, fun hr => by subst hr; exact hc.primed rfl hs⟩
      cases x with
      | noerror => exact Tri.ret fun _ h => h.1
      | error => exact shaken_report.weaken (fun _ h => h.1) fun _ _ h => h
      | done =>
        cases r with
        | client => exact shaken_toConnected.weaken (fun _ h => ⟨h.1, h.2 rfl⟩) fun _ _ h => h
        | server =>
          have hsend : Tri (Shaken .server) (Shaken .server) (sendAcknowledge e)
              (fun x c => Shaken .server c ∧ (x = .done → Primed .server c.log)) := by
            intro c hc
            rw [sendAcknowledge_eq]
            unfold send
            split
            · split
              · exact ⟨hc.add (by simp) (by simp) rfl rfl, fun _ => ⟨c.log, rfl⟩⟩
              · exact ⟨hc, by simp⟩
            · exact trivial
          refine (Tri.bind hsend fun y => ?_ : Tri (Shaken .server) (Shaken .server) (onHandshake .server e) _).weaken (fun _ h => h.1) fun _ _ h => h
          cases y with
          | noerror => exact Tri.ret fun _ h => h.1
          | done => exact shaken_toConnected.weaken (fun _ h => ⟨h.1, h.2 rfl⟩) fun _ _ h => h
          | error => exact shaken_report.weaken (fun _ h => h.1) fun _ _ h => h
    | .connected =>
      refine Tri.bind (shaken_same receiveRx_same) (fun x => ?_) c hc
      cases x with
      | noerror => exact Tri.ret fun _ h => h
      | error => exact shaken_report
      | done =>
        refine Tri.bind (R := fun _ => Shaken r) (Tri.get fun c hc => ?_) fun _ => Tri.modify fun c h => h.same rfl rfl
        exact shaken_note (.data c.rx.bytes) (by simp) _ c hc
  | linkError =>
    refine Tri.bind (R := fun _ => Shaken r) (Tri.modify fun c h => h.same rfl rfl) fun _ => Tri.get fun c hc => ?_
    match hs : c.st with
    | .init => exact hc
    | .handshake => exact hc
    | .connected => exact hc
    | .connecting => exact Tri.bind (shaken_note .error (by simp) _) (fun _ => shaken_toInit) c hc
  | timer =>
    refine Tri.bind (R := fun _ => Shaken r) (Tri.modify fun c h => h.same rfl rfl) fun _ => Tri.get fun c hc => ?_
    match hs : c.st with
    | .init => exact hc
    | .connecting => exact shaken_report c hc
    | .handshake => exact shaken_report c hc
    | .connected =>
      exact Tri.bind (shaken_same closeLink_same) (fun _ => Tri.bind (shaken_note .closed (by simp) _) fun _ => shaken_toInit) c hc

theorem shaken_run (es : List (Env × Ev)) {c c' : Conn} (hc : Shaken r c) (h : c.run r es = .ok c') : Shaken r c' := by
  induction es generalizing c with
  | nil => cases h; exact hc
  | cons x xs ih =>
    obtain ⟨e, v⟩ := x
    obtain ⟨d, h1, h2⟩ := Exec.bind_eq_ok.1 h
    refine ih ?_ h2
    have hp := shaken_event (r := r) (e := e) v c hc
    unfold Conn.next at h1
    match hm : event r e v c with
    | (.ok _, d') => rw [hm] at hp h1; cases h1; exact hp
    | (.throws, d') => rw [hm] at hp h1; cases h1; exact hp
    | (.abort, d') => rw [hm] at h1; cases h1
    | (.ub, d') => rw [hm] at h1; cases h1

/-- C95, all histories: a success that is reported to the user was prepared.  A client had written its Hello since the attempt was begun; the last
thing that a server wrote is an Acknowledge. -/
theorem C95_primed (m : Mem) (es : List (Env × Ev)) (c : Conn) (h : (Conn.create m).run r es = .ok c) {l1 l2 : List Act}
    (hl : c.log = l1 ++ .note .connected :: l2) : Primed r l1 :=
  (shaken_run es ⟨Good.nil, fun _ h => (by cases h), fun _ h => (by cases h)⟩ h).good l1 l2 hl

/-! ## What brings success about -/

/-- The log goes on with `new`, and no success is in it. -/
def Mute (l : List Act) (c : Conn) : Prop := ∃ new, c.log = l ++ new ∧ .note .connected ∉ new

theorem Mute.same {l : List Act} {c c' : Conn} (h : Mute l c) (_ : c'.st = c.st) (hl : c'.log = c.log) : Mute l c' := by
  unfold Mute at *
  rwa [hl]

theorem Mute.add {l : List Act} {c c' : Conn} {a : Act} (h : Mute l c) (ha : a ≠ .note .connected) (hl : c'.log = c.log ++ [a]) : Mute l c' := by
  obtain ⟨new, h1, h2⟩ := h
  refine ⟨new ++ [a], by rw [hl, h1, List.append_assoc], ?_⟩
  simp only [List.mem_append, List.mem_singleton, not_or]
  exact ⟨h2, fun h => ha h.symm⟩

variable {l : List Act}

theorem mute_same {α : Type} {m : CM α} (hm : ∀ c x, m c = x → x.2.st = c.st ∧ x.2.log = c.log) : Tri (Mute l) (Mute l) m (fun _ => Mute l) :=
  tri_same hm fun _ _ h hs hl => h.same hs hl

theorem mute_log {a : Act} (ha : a ≠ .note .connected) : Tri (Mute l) (Mute l) (logAct a) (fun _ => Mute l) := Tri.modify fun _ h => h.add ha rfl

theorem mute_transit {s : CSt} {enter : CM Unit} (ht : Tri (Mute l) (Mute l) enter (fun _ => Mute l)) :
    Tri (Mute l) (Mute l) (transit s enter) (fun _ => Mute l) :=
  transit_tri (fun _ _ h hs hl => h.same hs hl) (fun _ h _ => h) (fun _ h => h) ht (fun _ h _ => h)

theorem mute_toInit : Tri (Mute l) (Mute l) toInit (fun _ => Mute l) := mute_transit (Tri.modify fun _ h => h)

theorem mute_toHandshake : Tri (Mute l) (Mute l) (toHandshake e) (fun _ => Mute l) :=
  mute_transit (Tri.bind (mute_same startTimer_same) fun _ => Tri.modify fun _ h => h)

theorem mute_send (bytes : List UInt8) : Tri (Mute l) (Mute l) (send e bytes) (fun _ => Mute l) := by
  intro c hc
  exact send_post bytes hc (hc.add (by simp) rfl)

theorem mute_call (x : Call) : Tri (Mute l) (Mute l) (call r e x) (fun _ => Mute l) := by
  have hacc : Tri (Mute l) (Mute l) (userAccept e) (fun _ => Mute l) := by
    refine Tri.get fun c hc => ?_
    match hs : c.st with
    | .init => exact Tri.bind (R := fun _ => Mute l) (Tri.modify fun _ h => h) (fun _ => Tri.bind (mute_same allocTimer_same) fun _ =>
        Tri.bind (mute_log (by simp)) fun _ => mute_toHandshake) c hc
    | .connecting => exact hc
    | .handshake => exact hc
    | .connected => exact hc
  cases x with
  | connect =>
    refine Tri.get fun c hc => ?_
    match hs : c.st with
    | .init => exact Tri.bind (mute_same allocLink_same) (fun _ => Tri.bind (mute_same allocTimer_same) fun _ => Tri.bind (mute_log (by simp)) fun _ =>
        mute_transit (Tri.bind (mute_same connectLink_same) fun _ => mute_same startTimer_same)) c hc
    | .connecting => exact hc
    | .handshake => exact hc
    | .connected => exact hc
  | accept =>
    cases r with
    | client => exact Tri.ret fun _ h => h
    | server => exact hacc
  | close =>
    refine Tri.get fun c hc => ?_
    match hs : c.st with
    | .connected => exact Tri.bind (mute_log (by simp)) (fun _ => Tri.bind (mute_same closeLink_same) fun _ => mute_toInit) c hc
    | .init => exact hc
    | .connecting => exact hc
    | .handshake => exact hc
  | send bytes => exact Tri.bind (mute_send bytes) fun _ => Tri.ret fun _ h => h
  | consume n => exact Tri.modify fun _ h => h
  | fail => exact fun _ h => h

theorem mute_calls (xs : List Call) : Tri (Mute l) (Mute l) (calls r e xs) (fun _ => Mute l) := by
  induction xs with
  | nil => exact Tri.ret fun _ h => h
  | cons x xs ih => exact Tri.bind (mute_call x) fun _ => ih

theorem mute_note {n : Note} (hn : n ≠ .connected) (xs : List Call) : Tri (Mute l) (Mute l) (do
    logAct (.note n)
    calls r e xs) (fun _ => Mute l) :=
  Tri.bind (mute_log fun h => hn (by injection h)) fun _ => mute_calls xs

theorem mute_report : Tri (Mute l) (Mute l) (closeAndReport r e) (fun _ => Mute l) :=
  Tri.bind (mute_same closeLink_same) fun _ => Tri.bind (mute_note (by simp) _) fun _ => mute_toInit

/-- Entering the connected state reports success once. -/
theorem toConnected_said : Tri (fun c => Mute l c ∨ Mute (l ++ [.note .connected]) c) (fun c => c.log = l) (toConnected r e)
    (fun _ c => Mute l c ∨ Mute (l ++ [.note .connected]) c) := by
  refine Tri.get fun c hc => ?_
  by_cases hs : c.st = .connected
  · rw [if_pos hs]
    exact .inl ⟨[], by rw [hc, List.append_nil], by simp⟩
  · rw [if_neg hs]
    have key : Tri (fun c => Mute l c ∨ Mute (l ++ [.note .connected]) c) (fun c => c.log = l) (do
        exit c.st
        modify fun c => { c with st := .connected }
        (do
          notifyConnected r e
          receivePreaction
          startTimer e)) (fun _ c => Mute l c ∨ Mute (l ++ [.note .connected]) c) := by
      refine Tri.bind (R := fun _ c => c.log = l) ?_ fun _ => Tri.bind (R := fun _ c => c.log = l) (Tri.modify fun c h => h) fun _ => ?_
      · intro d hd
        have h1 := exit_same (s := c.st) d _ rfl
        match h : exit c.st d with
        | (.ok a, c') => rw [h] at h1; exact h1.2.trans hd
        | (.throws, c') => rw [h] at h1; exact .inl ⟨[], by rw [List.append_nil]; exact h1.2.trans hd, by simp⟩
        | (.abort, c') => exact trivial
        | (.ub, c') => exact trivial
      · have inner : Tri (Mute (l ++ [.note .connected])) (fun c => c.log = l) (do
            notifyConnected r e
            receivePreaction
            startTimer e) (fun _ => Mute (l ++ [.note .connected])) := by
          refine Tri.bind (R := fun _ => Mute (l ++ [.note .connected])) ?_ fun _ => Tri.bind (R := fun _ => Mute (l ++ [.note .connected]))
            (Tri.modify fun _ h => h) fun _ => mute_same startTimer_same
          exact Tri.bind (R := fun _ => Mute (l ++ [.note .connected])) (Tri.modify fun c h => ⟨[], by show c.log ++ _ = _; rw [h, List.append_nil], by simp⟩)
            fun _ => mute_calls _
        intro d hd
        have := inner d hd
        match h : (do
            notifyConnected r e
            receivePreaction
            startTimer e : CM Unit) d with
        | (.ok a, c') => rw [h] at this; exact .inr this
        | (.throws, c') => rw [h] at this; exact .inr this
        | (.abort, c') => exact trivial
        | (.ub, c') => exact trivial
    exact key c hc

/-- What a connection has written between the message it waited for and the report of success. -/
def thanks : Role → List Act
  | .client => []
  | .server => [.sent ackFrame]

theorem isHandshake_letters {b : Buf} (h : isHandshake r b = true) : memRead b.packet b.tail 3 = awaited r := by
  cases r <;> simp only [isHandshake, byteIs, Bool.and_eq_true, beq_iff_eq] at h <;> obtain ⟨⟨h1, h2⟩, h3⟩ := h
  · show [b.packet (b.tail + 0), b.packet (b.tail + 1), b.packet (b.tail + 2)] = _
    rw [h1, h2, h3]
    rfl
  · show [b.packet (b.tail + 0), b.packet (b.tail + 1), b.packet (b.tail + 2)] = _
    rw [h1, h2, h3]
    rfl

theorem receive_done_bytes {o : Bool} {x : Rx} {b b' : Buf} (h : receive o x b = .ok (.done, b')) : IsChunk b'.bytes := by
  have hev : evaluate b' = .ok .done := by
    unfold receive at h
    split at h
    · simp at h
    · split at h
      · cases x with
        | na => simp at h
        | error => simp at h
        | ok bytes =>
          obtain ⟨y, h1, h2⟩ := Exec.bind_eq_ok.mp h
          simp only [Exec.pure_eq, Exec.ok.injEq, Prod.mk.injEq] at h2
          rw [← h2.2, h1, h2.1]
      · simp at h
  unfold evaluate at hev
  repeat' split at hev
  all_goals try cases hev
  rename_i h1 _ _ h4
  have h8 : messageHeaderSize = 8 := rfl
  have hlen : b'.bytes.length = b'.size := by
    unfold Buf.bytes
    exact MsgStorage.length_memRead _ _ _
  have h4 : b'.size = msgSize b' := Classical.not_not.mp h4
  refine ⟨by omega, ?_⟩
  rw [hlen, h4, msgSize_eq]
  unfold sizeField Buf.bytes
  rw [getD_memRead _ _ _ _ (by omega), getD_memRead _ _ _ _ (by omega), getD_memRead _ _ _ _ (by omega), getD_memRead _ _ _ _ (by omega),
    getD_memRead _ _ _ _ (by omega), getD_memRead _ _ _ _ (by omega), getD_memRead _ _ _ _ (by omega), getD_memRead _ _ _ _ (by omega)]

/-- C95, all states and events: success is reported only when the last bytes of a complete chunk with the awaited letters have just come; a server has
written its Acknowledge before. -/
theorem C95_success {c c' : Conn} {v : Ev} (h : c.next r e v = .ok c') {new : List Act} (hl : c'.log = c.log ++ new) (hn : .note .connected ∈ new) :
    c.st = .handshake ∧ v = .linkData ∧ (∃ b, receive c.opened e.rx c.rx = .ok (.done, b) ∧ IsChunk b.bytes ∧ b.bytes.take 3 = awaited r) ∧
      ∃ rest, new = thanks r ++ .note .connected :: rest ∧ .note .connected ∉ rest := by
  have hm : ¬ Mute c.log c' := by
    rintro ⟨n, h1, h2⟩
    rw [hl] at h1
    exact h2 (List.append_cancel_left h1 ▸ hn)
  have hself : Mute c.log c := ⟨[], by simp, by simp⟩
  have post : ∀ {P : Conn → Prop}, Post P (fun _ => P) (event r e v c) → P c' := by
    intro P hp
    unfold Conn.next at h
    match hm : event r e v c with
    | (.ok _, d') => rw [hm] at hp h; cases h; exact hp
    | (.throws, d') => rw [hm] at hp h; cases h; exact hp
    | (.abort, d') => rw [hm] at h; cases h
    | (.ub, d') => rw [hm] at h; cases h
  cases v with
  | user x => exact absurd (post (mute_call x c hself)) hm
  | linkConnected =>
    refine absurd (post ?_) hm
    refine Tri.get (f := fun c => _) (fun c hc => ?_) c hself
    match hs : c.st with
    | .init => exact hc
    | .handshake => exact hc
    | .connected => exact hc
    | .connecting =>
      have hsend : ∀ {l : List Act}, Tri (Mute l) (Mute l) (sendOpening r e) (fun _ => Mute l) := by
        intro l
        cases r with
        | client => rw [sendOpening_client]; exact mute_send _
        | server => rw [sendOpening_server]; exact mute_send _
      refine Tri.bind hsend (fun x => ?_) c hc
      cases x with
      | noerror =>
        cases r with
        | client => exact mute_note (by simp) _
        | server => exact Tri.ret fun _ h => h
      | done => exact mute_toHandshake
      | error => exact mute_report
  | linkError =>
    refine absurd (post ?_) hm
    refine Tri.bind (R := fun _ => Mute c.log) (Tri.modify fun _ h => h) (fun _ => Tri.get fun c hc => ?_) c hself
    match hs : c.st with
    | .init => exact hc
    | .handshake => exact hc
    | .connected => exact hc
    | .connecting => exact Tri.bind (mute_note (by simp) _) (fun _ => mute_toInit) c hc
  | timer =>
    refine absurd (post ?_) hm
    refine Tri.bind (R := fun _ => Mute c.log) (Tri.modify fun _ h => h) (fun _ => Tri.get fun c hc => ?_) c hself
    match hs : c.st with
    | .init => exact hc
    | .connecting => exact mute_report c hc
    | .handshake => exact mute_report c hc
    | .connected => exact Tri.bind (mute_same closeLink_same) (fun _ => Tri.bind (mute_note (by simp) _) fun _ => mute_toInit) c hc
  | linkData =>
    match hs : c.st with
    | .init =>
      refine absurd (post (P := Mute c.log) ?_) hm
      show Post _ _ (onData r e c)
      unfold onData
      simp only [bind_run, CM.get, andThen, hs]
      exact hself
    | .connecting =>
      refine absurd (post (P := Mute c.log) ?_) hm
      show Post _ _ (onData r e c)
      unfold onData
      simp only [bind_run, CM.get, andThen, hs]
      exact hself
    | .connected =>
      refine absurd (post (P := Mute c.log) ?_) hm
      show Post _ _ (onData r e c)
      unfold onData
      rw [bind_run]
      simp only [CM.get, andThen, hs]
      refine Tri.bind (mute_same receiveRx_same) (fun x => ?_) c hself
      cases x with
      | noerror => exact Tri.ret fun _ h => h
      | error => exact mute_report
      | done => exact Tri.bind (R := fun _ => Mute c.log) (Tri.get fun d hd => mute_note (n := .data d.rx.bytes) (by simp) _ d hd) fun _ => Tri.modify fun _ h => h
    | .handshake =>
      refine ⟨rfl, rfl, ?_⟩
      have hev : event r e .linkData c = (do
          let x ← receiveHandshake r e
          match x with
          | .noerror => pure ()
          | .done => onHandshake r e
          | .error => closeAndReport r e : CM Unit) c := by
        show onData r e c = _
        unfold onData
        rw [bind_run]
        simp only [CM.get, andThen, hs]
        rfl
      have hrx := receiveRx_same (e := e) c _ rfl
      have hshape : ∀ y, event r e .linkData c = y → (∃ b, receive c.opened e.rx c.rx = .ok (.done, b) ∧ IsChunk b.bytes ∧ b.bytes.take 3 = awaited r ∧
          ∃ d, d.log = c.log ∧ onHandshake r e d = y) ∨ Post (Mute c.log) (fun _ => Mute c.log) y := by
        intro y hy
        subst hy
        rw [hev, bind_run]
        unfold receiveHandshake
        rw [bind_run]
        unfold receiveRx
        split
        · rename_i hlink
          split
          · rename_i x b hrec
            cases x with
            | noerror => exact .inr hself
            | error => exact .inr (mute_report { c with rx := b } hself)
            | done =>
              simp only [andThen]
              rw [bind_run]
              simp only [CM.get, andThen]
              by_cases hh : isHandshake r b = true
              · rw [if_pos hh, bind_run]
                have hdec := decodeHandshake_same (r := r) { c with rx := b } _ rfl
                match hd : decodeHandshake r { c with rx := b } with
                | (.ok a, d) =>
                  rw [hd] at hdec
                  refine .inl ⟨b, hrec, receive_done_bytes hrec, ?_, d, hdec.2, rfl⟩
                  have hc := receive_done_bytes hrec
                  have hb : b.bytes.length = b.size := by unfold Buf.bytes; exact MsgStorage.length_memRead _ _ _
                  rw [← isHandshake_letters hh]
                  unfold Buf.bytes
                  have h3 : b.size = 3 + (b.size - 3) := by have := hc.1; omega
                  rw [h3, memRead_split, List.take_left' (MsgStorage.length_memRead _ _ _)]
                | (.throws, d) => rw [hd] at hdec; exact .inr (hself.same hdec.1 hdec.2)
                | (.abort, d) => exact .inr trivial
                | (.ub, d) => exact .inr trivial
              · rw [if_neg hh]
                exact .inr (mute_report { c with rx := b } hself)
          · exact .inr hself
          · exact .inr trivial
          · exact .inr trivial
        · split
          · exact .inr (mute_report c hself)
          · exact .inr trivial
      rcases hshape _ rfl with ⟨b, h1, h2, h3, d, h4, h5⟩ | hmute
      · refine ⟨⟨b, h1, h2, h3⟩, ?_⟩
        have hsaid : Mute c.log c' ∨ Mute (c.log ++ (thanks r ++ [.note .connected])) c' := by
          refine post (P := fun c' => Mute c.log c' ∨ Mute (c.log ++ (thanks r ++ [.note .connected])) c') ?_
          rw [← h5]
          cases r with
          | client => exact toConnected_said d h4
          | server =>
            show Post _ _ ((sendAcknowledge e >>= _) d)
            rw [sendAcknowledge_eq, bind_run]
            have hd : Mute c.log d := ⟨[], by rw [h4, List.append_nil], by simp⟩
            have left : ∀ {y : Exec Unit × Conn}, Post (Mute c.log) (fun _ => Mute c.log) y →
                Post (fun c' => Mute c.log c' ∨ Mute (c.log ++ (thanks .server ++ [.note .connected])) c')
                  (fun _ c' => Mute c.log c' ∨ Mute (c.log ++ (thanks .server ++ [.note .connected])) c') y := by
              intro y hy
              match y with
              | (.ok a, c') => exact .inl hy
              | (.throws, c') => exact .inl hy
              | (.abort, c') => exact trivial
              | (.ub, c') => exact trivial
            unfold send
            split
            · split
              · have := toConnected_said (l := c.log ++ [.sent ackFrame]) (r := .server) (e := e) { d with log := d.log ++ [.sent ackFrame] } (by show d.log ++ _ = _; rw [h4])
                simp only [andThen]
                match hy : toConnected .server e { d with log := d.log ++ [.sent ackFrame] } with
                | (.ok a, c') | (.throws, c') =>
                  rw [hy] at this
                  rcases this with ⟨n, hn1, hn2⟩ | this
                  · exact .inl ⟨.sent ackFrame :: n, by rw [hn1, List.append_assoc]; rfl, by simp [hn2]⟩
                  · refine .inr ?_
                    rwa [List.append_assoc] at this
                | (.abort, c') => exact trivial
                | (.ub, c') => exact trivial
              · exact left (mute_report d hd)
            · exact trivial
        obtain ⟨n, hn1, hn2⟩ := hsaid.resolve_left hm
        rw [hl, List.append_assoc] at hn1
        refine ⟨n, ?_, hn2⟩
        rw [List.append_cancel_left hn1, List.append_assoc]
        rfl
      · exact absurd (post hmute) hm

/-! ## A client and a server of the library -/

/-- A connection that waits for the message of its peer and has got nothing yet. -/
structure Waits (c : Conn) : Prop where
  st : c.st = .handshake
  link : c.link = true
  opened : c.opened = true
  timer : c.timer = true
  tail : c.rx.tail = 0
  head : c.rx.head = 0

theorem shake_piece {c : Conn} {p : List UInt8} {b : Buf} (hs : c.st = .handshake) (hl : c.link = true) (ho : c.opened = true)
    (h : receive true (.ok p) c.rx = .ok (.noerror, b)) : c.next r { e with rx := .ok p } .linkData = .ok { c with rx := b } := by
  unfold Conn.next
  simp only [event, onData, bind_run, CM.get, andThen, hs, receiveHandshake, receiveRx, hl, ho, if_true, h]
  rfl

/-- All pieces but the last one are stored. -/
theorem shake_feed (n : Nat) (ps : List (List UInt8)) (c : Conn) (b : Buf) (hs : c.st = .handshake) (hl : c.link = true) (ho : c.opened = true)
    (h : feed (ps.map .ok) c.rx = .ok (List.replicate n .noerror ++ [.done], b)) :
    ∃ b0 p, receive true (.ok p) b0 = .ok (.done, b) ∧
      c.run r (arrivals e ps) = Conn.next r { c with rx := b0 } { e with rx := .ok p } .linkData := by
  induction n generalizing ps c with
  | zero =>
    match ps with
    | [] => simp [feed] at h
    | p :: ps =>
      obtain ⟨⟨x, b1⟩, h1, h2⟩ := Exec.bind_eq_ok.1 h
      obtain ⟨⟨xs, b2⟩, h3, h4⟩ := Exec.bind_eq_ok.1 h2
      simp only [Exec.pure_eq, Exec.ok.injEq, Prod.mk.injEq, List.replicate_zero, List.nil_append, List.cons.injEq] at h4
      obtain ⟨⟨rfl, rfl⟩, rfl⟩ := h4
      match ps with
      | [] =>
        simp only [feed, List.map_nil, Exec.ok.injEq, Prod.mk.injEq] at h3
        obtain ⟨_, rfl⟩ := h3
        refine ⟨c.rx, p, h1, ?_⟩
        simp only [arrivals, List.map_cons, List.map_nil, Conn.run]
        match Conn.next r c { e with rx := .ok p } .linkData with
        | .ok _ => rfl
        | .throws => rfl
        | .abort => rfl
        | .ub => rfl
      | q :: qs =>
        obtain ⟨⟨x, b1⟩, _, h5⟩ := Exec.bind_eq_ok.1 h3
        obtain ⟨⟨xs, b3⟩, _, h6⟩ := Exec.bind_eq_ok.1 h5
        simp at h6
  | succ n ih =>
    match ps with
    | [] => simp [feed] at h
    | p :: ps =>
      obtain ⟨⟨x, b1⟩, h1, h2⟩ := Exec.bind_eq_ok.1 h
      obtain ⟨⟨xs, b2⟩, h3, h4⟩ := Exec.bind_eq_ok.1 h2
      simp only [Exec.pure_eq, Exec.ok.injEq, Prod.mk.injEq, List.replicate_succ, List.cons_append, List.cons.injEq] at h4
      obtain ⟨⟨rfl, rfl⟩, rfl⟩ := h4
      obtain ⟨b0, q, h5, h6⟩ := ih ps { c with rx := b1 } hs hl ho h3
      refine ⟨b0, q, h5, ?_⟩
      simp only [arrivals, List.map_cons, Conn.run] at h6 ⊢
      rw [shake_piece hs hl ho h1, Exec.ok_bind]
      exact h6

theorem letters_isHandshake {b : Buf} (h3 : 3 ≤ b.bytes.length) (h : b.bytes.take 3 = awaited r) : isHandshake r b = true := by
  have hb : b.bytes.length = b.size := by unfold Buf.bytes; exact MsgStorage.length_memRead _ _ _
  have : memRead b.packet b.tail 3 = awaited r := by
    rw [← h]
    unfold Buf.bytes
    have h4 : b.size = 3 + (b.size - 3) := by omega
    rw [h4, memRead_split, List.take_left' (MsgStorage.length_memRead _ _ _)]
  have this : [b.packet (b.tail + 0), b.packet (b.tail + 1), b.packet (b.tail + 2)] = awaited r := this
  cases r with
  | client =>
    simp only [awaited, List.cons.injEq] at this
    simp only [isHandshake, byteIs, Bool.and_eq_true, beq_iff_eq]
    exact ⟨⟨this.1, this.2.1⟩, this.2.2.1⟩
  | server =>
    simp only [awaited, List.cons.injEq] at this
    simp only [isHandshake, byteIs, Bool.and_eq_true, beq_iff_eq]
    exact ⟨⟨this.1, this.2.1⟩, this.2.2.1⟩

theorem toConnected_calm {c : Conn} (hs : c.st = .handshake) (ht : c.timer = true) (h1 : e.starts = true) (h2 : e.onConnected = []) :
    toConnected r e c = (.ok (), { c with st := .connected, armed := true, rx := c.rx.reset, log := c.log ++ [.note .connected] }) := by
  unfold toConnected
  rw [transit_run (by rw [hs]; simp) (fun _ => ht)]
  simp only [bind_run, notifyConnected, logAct, CM.modify, andThen, h2, calls, pure_run, receivePreaction, startTimer, ht, h1, if_true, hs]

/-- Any chunk that begins with the letters `ACK`, however cut, makes a client connected. -/
theorem shake_client (he : e.starts = true) (hn : e.onConnected = []) {c : Conn} (hc : Waits c) {ps : List (List UInt8)} {last : List UInt8}
    (hf : GoodCut (ps, last)) (h3 : (ps.flatten ++ last).take 3 = awaited .client) :
    ∃ c', c.run .client (arrivals e (ps ++ [last])) = .ok c' ∧ Ready c' ∧ c'.log = c.log ++ [.note .connected] := by
  have f1 : IsChunk (ps.flatten ++ last) := hf.1
  obtain ⟨b, hb, hbt, hbb⟩ := C30_framing_partial c.rx ps last hc.tail hc.head f1 hf.2.1 hf.2.2.1 hf.2.2.2
  obtain ⟨b0, p, h1, h2⟩ := shake_feed (r := .client) (e := e) _ _ c b hc.st hc.link hc.opened hb
  obtain ⟨b', hd⟩ := C47_ack b hbt
  have hh : isHandshake .client b = true := letters_isHandshake (by rw [hbb]; have := f1.1; omega) (by rw [hbb]; exact h3)
  have hto := toConnected_calm (r := .client) (e := { e with rx := .ok p }) (c := { c with rx := b' }) hc.st hc.timer he hn
  simp only [hc.st, hc.link, hc.opened] at hto
  refine ⟨{ c with st := .connected, armed := true, rx := b'.reset, log := c.log ++ [.note .connected] }, ?_, ⟨rfl, hc.link, hc.opened, rfl, rfl⟩, rfl⟩
  · rw [h2]
    unfold Conn.next
    simp only [event, onData, bind_run, CM.get, andThen, hc.st, receiveHandshake, receiveRx, hc.link, hc.opened, if_true, h1, hh, decodeHandshake, hd, pure_run,
      onHandshake]
    rw [hto]

theorem shake_server (he : e.starts = true) (hw : e.writes = true) (hn : e.onConnected = []) {c : Conn} (hc : Waits c) {ps : List (List UInt8)}
    {last : List UInt8} (hf : ps.flatten ++ last = helloFrame) (hl : last ≠ []) :
    ∃ c', c.run .server (arrivals e (ps ++ [last])) = .ok c' ∧ Ready c' ∧ c'.log = c.log ++ [.sent ackFrame, .note .connected] := by
  have hlen : helloFrame.length = 32 := rfl
  have hle : ps.flatten.length ≤ 32 := by rw [← hlen, ← hf, List.length_append]; omega
  obtain ⟨b, hb, hbt, hbb⟩ := C30_framing_partial c.rx ps last hc.tail hc.head (by rw [hf]; decide) hl (by omega) (by rw [hf]; decide)
  obtain ⟨b0, p, h1, h2⟩ := shake_feed (r := .server) (e := e) _ _ c b hc.st hc.link hc.opened hb
  have hurl : memRead b.packet 28 4 = [0xFF, 0xFF, 0xFF, 0xFF] := by
    have hb2 : b.size = 28 + 4 := by
      have : b.bytes.length = b.size := by unfold Buf.bytes; exact MsgStorage.length_memRead _ _ _
      rw [← this, hbb, hf]
      rfl
    have hb3 : memRead b.packet b.tail (28 + 4) = helloFrame := by rw [← hb2, ← hf, ← hbb]; rfl
    rw [memRead_split, hbt] at hb3
    have := (List.append_inj (t₁ := memRead b.packet (0 + 28) 4) (s₂ := helloFrame.take 28) (t₂ := helloFrame.drop 28) (by rw [hb3, List.take_append_drop]) (by
      rw [MsgStorage.length_memRead]; rfl)).2
    rw [Nat.zero_add] at this
    rw [this]
    rfl
  have hd := hello_inside b hbt (.inr (by rw [hurl]; decide +kernel))
  have hh : isHandshake .server b = true := letters_isHandshake (by rw [hbb, hf]; decide) (by rw [hbb, hf]; rfl)
  generalize hb' : ({ b with tail := 28 + strSpan (leValue (memRead b.packet 28 4)) } : Buf) = b' at hd
  have hto := toConnected_calm (r := .server) (e := { e with rx := .ok p }) (c := { c with rx := b', log := c.log ++ [.sent ackFrame] }) hc.st hc.timer he hn
  simp only [hc.st, hc.link, hc.opened, hw] at hto
  refine ⟨{ c with st := .connected, armed := true, rx := b'.reset, log := c.log ++ [.sent ackFrame] ++ [.note .connected] }, ?_,
    ⟨rfl, hc.link, hc.opened, rfl, rfl⟩, ?_⟩
  · rw [h2]
    unfold Conn.next
    simp only [event, onData, bind_run, CM.get, andThen, hc.st, receiveHandshake, receiveRx, hc.link, hc.opened, if_true, h1, hh, decodeHandshake, hd, pure_run,
      onHandshake, sendAcknowledge_eq, send, hw, Bool.and_self]
    rw [hto]
  · show c.log ++ _ ++ _ = _
    rw [List.append_assoc]
    rfl

/-- An idle client that is told to connect says hello as soon as the link is up. -/
theorem shake_begin {c : Conn} (hs : c.st = .init) (ha : Avail e) (hw : e.writes = true) :
    ∃ c', c.run .client [(e, .user .connect), (e, .linkConnected)] = .ok c' ∧ Waits c' ∧ c'.log = c.log ++ [.attempt, .sent helloFrame] := by
  have h1 : userConnect e c = (.ok (), { c with st := .connecting, link := true, opened := true, timer := true, armed := true, log := c.log ++ [.attempt] }) := by
    unfold userConnect toConnecting
    simp only [bind_run, CM.get, andThen, hs, allocLink, allocTimer, ha.link, ha.timer, if_true, CM.modify, logAct]
    rw [transit_run (by simp) (by simp)]
    simp only [bind_run, connectLink, startTimer, ha.connects, ha.starts, if_true, andThen]
  refine ⟨{ c with st := .handshake, link := true, opened := true, timer := true, armed := true, rx := c.rx.reset, log := c.log ++ [.attempt] ++ [.sent helloFrame] }, ?_, ⟨rfl, rfl, rfl, rfl, rfl, rfl⟩, by simp⟩
  show (Conn.next _ _ _ _ >>= _) = _
  rw [show c.next .client e (.user .connect) = .ok { c with st := .connecting, link := true, opened := true, timer := true, armed := true, log := c.log ++ [.attempt] } by unfold Conn.next; simp only [event, call, h1]]
  rw [Exec.ok_bind]
  show (Conn.next _ _ _ _ >>= _) = _
  have h2 : onConnected .client e { c with st := .connecting, link := true, opened := true, timer := true, armed := true, log := c.log ++ [.attempt] } =
      (.ok (), { c with st := .handshake, link := true, opened := true, timer := true, armed := true, rx := c.rx.reset, log := c.log ++ [.attempt] ++ [.sent helloFrame] }) := by
    unfold onConnected toHandshake
    simp only [bind_run, CM.get, andThen, sendOpening_client, send, hw, if_true, Bool.and_self]
    rw [transit_run (by simp) (by simp)]
    simp only [bind_run, startTimer, ha.starts, if_true, andThen, receivePreaction, CM.modify]
  unfold Conn.next
  simp only [event, h2]
  rfl

/-- An idle server that is given an accepted link waits for a hello. -/
theorem shake_accept {c : Conn} (hs : c.st = .init) (ha : Avail e) :
    ∃ c', c.run .server [(e, .user .accept)] = .ok c' ∧ Waits c' ∧ c'.log = c.log ++ [.attempt] := by
  refine ⟨{ c with st := .handshake, link := true, opened := true, timer := true, armed := true, rx := c.rx.reset, log := c.log ++ [.attempt] }, ?_, ⟨rfl, rfl, rfl, rfl, rfl, rfl⟩, rfl⟩
  have h1 : userAccept e c = (.ok (), { c with st := .handshake, link := true, opened := true, timer := true, armed := true, rx := c.rx.reset, log := c.log ++ [.attempt] }) := by
    unfold userAccept toHandshake
    simp only [bind_run, CM.get, andThen, hs, setLink, allocTimer, ha.timer, if_true, CM.modify, logAct]
    rw [transit_run (by simp) (by simp)]
    simp only [bind_run, startTimer, ha.starts, if_true, andThen, receivePreaction, CM.modify]
  show (Conn.next _ _ _ _ >>= _) = _
  unfold Conn.next
  simp only [event, call, h1]
  rfl

/-- C95: an idle client and an idle server of the library, whatever they did before, agree: the client writes something when its link is up; however that is
cut on its way to the server, the server answers it and reports success; however the answer is cut, the client reports success.  Both are
then ready for chunks, see `C30_stream_partial`. -/
theorem C95_agree {c s : Conn} (hc : c.st = .init) (hs : s.st = .init) (ha : Avail e) (hw : e.writes = true) (hn : e.onConnected = []) :
    ∃ c1 s0 hello ack, c.run .client [(e, .user .connect), (e, .linkConnected)] = .ok c1 ∧ c1.log = c.log ++ [.attempt, .sent hello] ∧
      s.run .server [(e, .user .accept)] = .ok s0 ∧ s0.log = s.log ++ [.attempt] ∧
      (∀ ps last, ps.flatten ++ last = hello → last ≠ [] → ∃ s1, s0.run .server (arrivals e (ps ++ [last])) = .ok s1 ∧ Ready s1 ∧
        s1.log = s0.log ++ [.sent ack, .note .connected]) ∧
      ∀ ps last, ps.flatten ++ last = ack → last ≠ [] → ∃ c2, c1.run .client (arrivals e (ps ++ [last])) = .ok c2 ∧ Ready c2 ∧
        c2.log = c1.log ++ [.note .connected] := by
  obtain ⟨c1, h1, h2, h3⟩ := shake_begin hc ha hw
  obtain ⟨s0, h4, h5, h6⟩ := shake_accept hs ha
  refine ⟨c1, s0, helloFrame, ackFrame, h1, h3, h4, h6, fun ps last hf hl => shake_server ha.starts hw hn h5 hf hl, fun ps last hf hl => ?_⟩
  have hle : ps.flatten.length ≤ 28 := by rw [show 28 = ackFrame.length from rfl, ← hf, List.length_append]; omega
  exact shake_client ha.starts hn h2 ⟨by rw [hf]; decide, hl, by show ps.flatten.length ≤ 1024; omega, by rw [hf]; decide⟩ (by rw [hf]; rfl)

/-! ## Where the code falls short -/

/-- C95 is violated for what the peer allows: whatever an Acknowledge says, the client is connected, and then it writes whatever it is told to.  In
particular the size of the receive buffer of the peer, bytes 12 to 15 of the Acknowledge, does not limit what is written. -/
theorem C95_limits_violated {c : Conn} (hc : Waits c) (ha : Avail e) (hw : e.writes = true) (hn : e.onConnected = []) {d : List UInt8}
    (hd : d.length = 20) (x : List UInt8) : ∃ c' c'', c.run .client (arrivals e [[0x41, 0x43, 0x4B, 0x46, 28, 0, 0, 0] ++ d]) = .ok c' ∧ Ready c' ∧
      c'.log = c.log ++ [.note .connected] ∧ c'.next .client e (.user (.send x)) = .ok c'' ∧ c''.log = c'.log ++ [.sent x] := by
  have hlen : ([0x41, 0x43, 0x4B, 0x46, 28, 0, 0, 0] ++ d).length = 28 := by rw [List.length_append, hd]; rfl
  have hcut : GoodCut ([], [0x41, 0x43, 0x4B, 0x46, 28, 0, 0, 0] ++ d) := by
    refine ⟨⟨?_, ?_⟩, ?_, Nat.zero_le _, ?_⟩
    · show 8 ≤ ([0x41, 0x43, 0x4B, 0x46, 28, 0, 0, 0] ++ d).length
      omega
    · show sizeField ([0x41, 0x43, 0x4B, 0x46, 28, 0, 0, 0] ++ d) = ([0x41, 0x43, 0x4B, 0x46, 28, 0, 0, 0] ++ d).length
      rw [hlen]
      rfl
    · exact List.cons_ne_nil _ _
    · show ([0x41, 0x43, 0x4B, 0x46, 28, 0, 0, 0] ++ d).length ≤ 4096
      omega
  obtain ⟨c', h1, h2, h3⟩ := shake_client (ps := []) (last := [0x41, 0x43, 0x4B, 0x46, 28, 0, 0, 0] ++ d) ha.starts hn hc
    hcut rfl
  refine ⟨c', { c' with log := c'.log ++ [.sent x] }, h1, h2, h3, ?_, rfl⟩
  unfold Conn.next
  simp only [event, call, bind_run, send, h2.link, h2.opened, hw, Bool.and_self, if_true, andThen]
  rfl

/-- C95 is violated for reverse connections: a server that is told to connect writes a ReverseHello (`RHE`); a client of the library to which that comes ends its
attempt with an error. -/
theorem C95_reverse_violated {c s : Conn} (hc : Waits c) (hs : s.st = .init) (ha : Avail e) (hw : e.writes = true) (hn : e.onError = []) :
    ∃ s' x c', s.run .server [(e, .user .connect), (e, .linkConnected)] = .ok s' ∧ s'.log = s.log ++ [.attempt, .sent x] ∧ x.take 3 = [0x52, 0x48, 0x45] ∧
      c.run .client (arrivals e [x]) = .ok c' ∧ c'.st = .init ∧ c'.log = c.log ++ [.note .error] := by
  have h1 : userConnect e s = (.ok (), { s with st := .connecting, link := true, opened := true, timer := true, armed := true, log := s.log ++ [.attempt] }) := by
    unfold userConnect toConnecting
    simp only [bind_run, CM.get, andThen, hs, allocLink, allocTimer, ha.link, ha.timer, if_true, CM.modify, logAct]
    rw [transit_run (by simp) (by simp)]
    simp only [bind_run, connectLink, startTimer, ha.connects, ha.starts, if_true, andThen]
  have h2 : onConnected .server e { s with st := .connecting, link := true, opened := true, timer := true, armed := true, log := s.log ++ [.attempt] } =
      (.ok (), { s with st := .handshake, link := true, opened := true, timer := true, armed := true, rx := s.rx.reset, log := s.log ++ [.attempt] ++ [.sent reverseFrame] }) := by
    unfold onConnected toHandshake
    simp only [bind_run, CM.get, andThen, sendOpening_server, send, hw, if_true, Bool.and_self]
    rw [transit_run (by simp) (by simp)]
    simp only [bind_run, startTimer, ha.starts, if_true, andThen, receivePreaction, CM.modify]
  obtain ⟨b, hb, hbt, hbb⟩ := C30_framing_partial c.rx [] reverseFrame hc.tail hc.head (by decide) (by decide) (by decide) (by decide)
  obtain ⟨b0, p, g1, g2⟩ := shake_feed (r := .client) (e := e) _ _ c b hc.st hc.link hc.opened hb
  have hh : isHandshake .client b = false := by
    cases h : isHandshake .client b with
    | false => rfl
    | true =>
      have h3 := isHandshake_letters h
      have hlen : b.size = 3 + 13 := by
        have : b.bytes.length = b.size := by unfold Buf.bytes; exact MsgStorage.length_memRead _ _ _
        rw [← this, hbb]
        rfl
      have h4 : b.bytes.take 3 = awaited .client := by
        unfold Buf.bytes
        rw [hlen, memRead_split, List.take_left' (MsgStorage.length_memRead _ _ _)]
        exact h3
      rw [hbb] at h4
      exact absurd h4 (by decide)
  refine ⟨{ s with st := .handshake, link := true, opened := true, timer := true, armed := true, rx := s.rx.reset, log := s.log ++ [.attempt] ++ [.sent reverseFrame] },
    reverseFrame, { c with st := .init, link := false, opened := false, timer := false, armed := false, rx := b, log := c.log ++ [.note .error] }, ?_, by simp, rfl, ?_, rfl, rfl⟩
  · show (Conn.next _ _ _ _ >>= _) = _
    rw [show s.next .server e (.user .connect) = .ok { s with st := .connecting, link := true, opened := true, timer := true, armed := true, log := s.log ++ [.attempt] } by unfold Conn.next; simp only [event, call, h1]]
    rw [Exec.ok_bind]
    show (Conn.next _ _ _ _ >>= _) = _
    unfold Conn.next
    simp only [event, h2]
    rfl
  · rw [show arrivals e [reverseFrame] = arrivals e ([] ++ [reverseFrame]) from rfl, g2]
    have h5 := toInit_run { c with rx := b, opened := false, log := c.log ++ [.note .error] } (by simp [hc.timer, hc.st])
    unfold Conn.next
    simp only [event, onData, bind_run, CM.get, andThen, hc.st, receiveHandshake, receiveRx, hc.link, hc.opened, if_true, g1, hh, pure_run, closeAndReport,
      closeLink, notifyError, logAct, CM.modify, hn, calls, Bool.false_eq_true, if_false]
    simp only [hc.st, hc.link] at h5
    rw [h5]
    rfl

/-! ## Examples -/

/-- A client and a server that are new agree when hello comes in three pieces and the acknowledge in two. -/
example : ∃ c1 s0 s1 c2, (Conn.create garbage).run .client [(calmEnv, .user .connect), (calmEnv, .linkConnected)] = .ok c1 ∧
    (Conn.create garbage).run .server [(calmEnv, .user .accept)] = .ok s0 ∧
    s0.run .server (arrivals calmEnv ([helloFrame.take 3, (helloFrame.drop 3).take 6] ++ [helloFrame.drop 9])) = .ok s1 ∧
    c1.run .client (arrivals calmEnv ([ackFrame.take 27] ++ [ackFrame.drop 27])) = .ok c2 ∧ Ready s1 ∧ Ready c2 ∧
    s1.log = [.attempt, .sent ackFrame, .note .connected] ∧ c2.log = [.attempt, .sent helloFrame, .note .connected] := by
  obtain ⟨c1, h1, h2, h3⟩ := shake_begin (c := Conn.create garbage) rfl calmEnv_avail.1 rfl
  obtain ⟨s0, h4, h5, h6⟩ := shake_accept (c := Conn.create garbage) rfl calmEnv_avail.1
  obtain ⟨s1, h7, h8, h9⟩ := shake_server (e := calmEnv) rfl rfl rfl h5 (ps := [helloFrame.take 3, (helloFrame.drop 3).take 6]) (last := helloFrame.drop 9) (by decide) (by decide)
  obtain ⟨c2, h10, h11, h12⟩ := shake_client (e := calmEnv) rfl rfl h2 (ps := [ackFrame.take 27]) (last := ackFrame.drop 27) (by
    refine ⟨?_, ?_, ?_, ?_⟩ <;> decide) (by decide)
  exact ⟨c1, s0, s1, c2, h1, h4, h7, h10, h8, h11, by rw [h9, h6]; rfl, by rw [h12, h3]; rfl⟩

/-- The log of the client of `visit`: success was prepared, and came with the acknowledge. -/
example : Primed .client [.attempt, .sent helloFrame] := by
  obtain ⟨c, _, h, _, _, _, _, _, hl⟩ := visit_runs
  exact C95_primed garbage _ c h (l2 := [.note (.data [0x4D, 0x53, 0x47, 0x46, 9, 0, 0, 0, 5])]) (by rw [hl]; rfl)

/-- A client that waits exists, and an acknowledge that allows no byte at all (a receive buffer of size zero) does not keep it from writing. -/
example (d x : List UInt8) (hd : d = List.replicate 20 0) : ∃ c c' c'', Waits c ∧
    c.run .client (arrivals calmEnv [[0x41, 0x43, 0x4B, 0x46, 28, 0, 0, 0] ++ d]) = .ok c' ∧
    c'.next .client calmEnv (.user (.send x)) = .ok c'' ∧ c''.log = c'.log ++ [.sent x] := by
  obtain ⟨c1, _, h2, _⟩ := shake_begin (c := Conn.create garbage) rfl calmEnv_avail.1 rfl
  obtain ⟨c', c'', h3, _, _, h4, h5⟩ := C95_limits_violated h2 calmEnv_avail.1 rfl rfl (d := d) (by rw [hd, List.length_replicate]) x
  exact ⟨c1, c', c'', h2, h3, h4, h5⟩

end Uscada.Ua
