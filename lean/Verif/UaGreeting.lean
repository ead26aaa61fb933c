import Verif.UaVisits
import Verif.UaHandshake
import Verif.UaFoot

/-!
# C98: greeting before service

UaTcpConnection.cpp:218-279, UaTcpConnectionReceiveHello.cpp, UaTcpConnectionConnected.cpp.  A peer is served by the OPC UA server only
after a complete first message of it came and Acknowledge was written; everything that is written afterwards is one chunk of at most 4096
bytes, which every peer that follows the standard has room for.
-/

namespace Uscada.Ua.Transport

open SM

/-! ## Specification -/

/-- What has happened between a connection object and its peer. -/
inductive Greet where
  /-- there is no peer -/
  | away
  /-- the peer is there and has not been greeted -/
  | silent
  /-- the peer has been greeted -/
  | served
deriving DecidableEq, Repr

/-- Three letters that begin the chunks of a secure channel (OPC 10000-6, 6.7.2.2). -/
def Lettered (d : List UInt8) : Prop := d.take 3 = [0x4D, 0x53, 0x47] ∨ d.take 3 = [0x4F, 0x50, 0x4E] ∨ d.take 3 = [0x43, 0x4C, 0x4F]

instance (d : List UInt8) : Decidable (Lettered d) := inferInstanceAs (Decidable (_ ∨ _ ∨ _))

/-- One whole chunk of a secure channel that fits into a buffer of 4096 bytes. -/
def OneChunk (d : List UInt8) : Prop := Lettered d ∧ IsChunk d ∧ d.length ≤ 4096

instance (d : List UInt8) : Decidable (OneChunk d) := inferInstanceAs (Decidable (_ ∧ _ ∧ _))

/-- What may happen next: a peer is accepted; it is greeted with Acknowledge or released; only a greeted peer gets chunks, has messages
handed up, or is bound to a channel. -/
def Greet.next : Greet → TAct → Option Greet
  | .away, .accepted => some .silent
  | .silent, .sent d => if d = ackFrame then some .served else none
  | .silent, .released => some .away
  | .served, .accepted => none
  | .served, .sent d => if OneChunk d then some .served else none
  | .served, .released => some .away
  | .served, _ => some .served
  | _, _ => none

def Greet.run (p : Greet) : List TAct → Option Greet
  | [] => some p
  | a :: l => match p.next a with
    | some q => q.run l
    | none => none

theorem Greet.run_append (p : Greet) (l l' : List TAct) : p.run (l ++ l') = (p.run l).bind (·.run l') := by
  induction l generalizing p with
  | nil => rfl
  | cons a l ih =>
    simp only [List.cons_append, Greet.run]
    cases p.next a with
    | none => rfl
    | some q => exact ih q

/-- The state in which a connection should be. -/
def phase : TSt → Greet
  | .init => .away
  | .hello => .silent
  | .connected => .served

/-- The connection has gone through the phases in order and stands in phase `p`. -/
def Stands (p : Greet) (t : Tcp) : Prop := Greet.run .away t.log = some p

/-- The phase is that of the state. -/
def Apt (t : Tcp) : Prop := Stands (phase t.st) t

/-- All connections are apt. -/
def AllApt (s : Srv) : Prop := ∀ k, Apt (s.conns k)

/-- All but `k`, of which `P` is known. -/
def But (k : Nat) (P : Tcp → Prop) (s : Srv) : Prop := P (s.conns k) ∧ ∀ j, j ≠ k → Apt (s.conns j)

/-! ## Rules -/

section rules

variable {k : Nat} {α β : Type} {P Q : Tcp → Prop}

/-- The operation goes from `P` to `Q`; exceptions leave all connections apt. -/
abbrev Gr (k : Nat) (P : Tcp → Prop) (m : SM Srv α) (Q : α → Tcp → Prop) : Prop := STri AllApt (But k P) m fun a => But k (Q a)

theorem But.all {s : Srv} (h : But k P s) (hp : ∀ t, P t → Apt t) : AllApt s := by
  intro j
  by_cases hj : j = k
  · subst hj; exact hp _ h.1
  · exact h.2 j hj

theorem But.mono {s : Srv} (h : But k P s) (hp : ∀ t, P t → Q t) : But k Q s := ⟨hp _ h.1, h.2⟩

theorem gr_conn {f : Tcp → Tcp} (h : ∀ t, P t → Q (f t)) : Gr k P (conn k f) fun _ => Q := by
  apply STri.modify
  rintro s ⟨h1, h2⟩
  refine ⟨?_, fun j hj => ?_⟩
  · simp only [Srv.set, if_pos]; exact h _ h1
  · simp only [Srv.set, if_neg hj]; exact h2 j hj

theorem gr_note {a : TAct} (h : ∀ t, P t → Q { t with log := t.log ++ [a] }) : Gr k P (note k a) fun _ => Q := gr_conn h

theorem gr_ret {a : α} {Q : α → Tcp → Prop} (h : ∀ t, P t → Q a t) : Gr k P (pure a : SM Srv α) Q := STri.ret fun _ hs => hs.mono h

theorem gr_self {f : Tcp → SM Srv α} {Q : α → Srv → Prop} (h : ∀ t, P t → STri AllApt (But k (· = t)) (f t) Q) : STri AllApt (But k P) (self k >>= f) Q := by
  rintro s ⟨h1, h2⟩
  exact h _ h1 s ⟨rfl, h2⟩

theorem gr_lift {x : Exec α} {Q : α → Tcp → Prop} (h : ∀ a, x = .ok a → ∀ t, P t → Q a t) (hp : ∀ t, P t → Apt t) : Gr k P (SM.lift x) Q := by
  intro s hs
  cases x with
  | ok a => exact hs.mono (h a rfl)
  | throws => exact hs.all hp
  | abort => trivial
  | ub => trivial

theorem gr_pre {P' : Tcp → Prop} {m : SM Srv α} {Q : α → Srv → Prop} (h : STri AllApt (But k P) m Q) (hp : ∀ t, P' t → P t) : STri AllApt (But k P') m Q :=
  h.weaken (fun _ hc => hc.mono hp) fun _ _ h => h

theorem gr_post {m : SM Srv α} {Q : α → Tcp → Prop} (h : Gr k P m Q) (hq : ∀ a t, Q a t → Apt t) : STri AllApt (But k P) m fun _ => AllApt :=
  h.weaken (fun _ hc => hc) fun a _ h => h.all (hq a)

end rules

theorem Stands.snoc {p q : Greet} {t : Tcp} {a : TAct} (h : Stands p t) (hn : p.next a = some q) : Stands q { t with log := t.log ++ [a] } := by
  show Greet.run .away (t.log ++ [a]) = some q
  rw [Greet.run_append, h]
  simp [Greet.run, hn]

/-! ## Handlers -/

section handlers

variable {k : Nat} {e : TEnv}

theorem gr_stopTimer {P : Tcp → Prop} (h : ∀ t, P t → P { t with armed := false }) : Gr k P (stopTimer k) fun _ => P := by
  refine gr_self fun t ht => ?_
  by_cases hc : t.timer = true
  · rw [if_pos hc]
    exact gr_conn fun u hu => by subst hu; exact h _ ht
  · rw [if_neg hc]
    exact STri.undefined

theorem gr_startTimer {P : Tcp → Prop} (h : ∀ t, P t → P { t with armed := true }) (hp : ∀ t, P t → Apt t) : Gr k P (startTimer k e) fun _ => P := by
  refine gr_self fun t ht => ?_
  by_cases hc : t.timer = true
  · rw [if_pos hc]
    by_cases hs : e.starts = true
    · rw [if_pos hs]
      exact gr_conn fun u hu => by subst hu; exact h _ ht
    · rw [if_neg hs]
      exact STri.throws fun s hs => hs.all fun u hu => by subst hu; exact hp _ ht
  · rw [if_neg hc]
    exact STri.undefined

/-- Phase `p`, state `st`. -/
def In (p : Greet) (st : TSt) (t : Tcp) : Prop := Stands p t ∧ t.st = st

theorem In.apt {p : Greet} {st : TSt} {t : Tcp} (h : In p st t) (hp : phase st = p) : Apt t := by
  unfold Apt
  rw [h.2, hp]
  exact h.1

theorem gr_exit {p : Greet} {st st' : TSt} : Gr k (In p st) (exit k st') fun _ => In p st := by
  cases st'
  · exact gr_ret fun _ h => h
  · exact gr_stopTimer fun _ h => h
  · exact gr_stopTimer fun _ h => h

theorem gr_transit {p : Greet} {st target : TSt} {m : SM Srv Unit} {Q : Tcp → Prop} (hne : st ≠ target) (h : Gr k (In p target) m fun _ => Q) :
    Gr k (In p st) (transit k target m) fun _ => Q := by
  refine gr_self fun t ht => ?_
  rw [if_neg (by rw [ht.2]; exact hne)]
  refine STri.bind (gr_pre gr_exit fun u hu => by subst hu; exact ht) fun _ => ?_
  exact STri.bind (gr_conn (Q := In p target) fun u hu => ⟨hu.1, rfl⟩) fun _ => h

theorem gr_releaseId {Q : Tcp → Prop} (hq : ∀ t, Q t → Apt t) : Gr k Q (releaseId k) fun _ => Q := by
  intro s hs
  unfold releaseId
  cases Pool.release s.ids k with
  | ok q => exact hs
  | throws => exact hs.all hq
  | abort => trivial
  | ub => trivial

theorem gr_toInit {p : Greet} {st : TSt} (hne : st ≠ .init) (hp : phase st = p) : Gr k (In p st) (toInit k) fun _ => In .away .init := by
  refine gr_transit hne ?_
  refine STri.bind (gr_conn (Q := In p .init) fun t ht => ht) fun _ => ?_
  refine STri.bind (gr_note (Q := In .away .init) fun t ht => ⟨ht.1.snoc ?_, ht.2⟩) fun _ => gr_releaseId fun t ht => ht.apt rfl
  cases st
  · exact absurd rfl hne
  · subst hp; rfl
  · subst hp; rfl

theorem gr_fail : Gr k (In .served .connected) (fail k) fun _ => In .away .init := by
  refine STri.bind (R := fun _ => But k (In .served .connected)) ?_ fun _ => gr_toInit (by decide) rfl
  refine gr_self fun t ht => ?_
  cases t.assoc with
  | none => exact gr_ret fun u hu => by subst hu; exact ht
  | some c => exact gr_note fun u hu => by subst hu; exact ⟨ht.1.snoc rfl, ht.2⟩

theorem gr_waits {p : Greet} {st target : TSt} (hne : st ≠ target) (hp : phase target = p) : Gr k (In p st) (transit k target do
    startTimer k e
    receivePreaction k) fun _ => In p target :=
  gr_transit hne (STri.bind (gr_startTimer (fun _ h => h) fun _ h => h.apt hp) fun _ => gr_conn fun _ h => h)

theorem gr_linkSend {p q : Greet} {st : TSt} {d : List UInt8} (hn : p.next (.sent d) = some q) :
    Gr k (In p st) (linkSend k e d) fun r t => (r = .done → In q st t) ∧ (r ≠ .done → In p st t) := by
  refine gr_self fun t ht => ?_
  by_cases hl : t.link = true
  · rw [if_pos hl]
    by_cases hw : (t.opened && e.writes) = true
    · rw [if_pos hw]
      refine STri.bind (gr_note (Q := In q st) fun u hu => by subst hu; exact ⟨ht.1.snoc hn, ht.2⟩) fun _ => ?_
      exact gr_ret fun u hu => ⟨fun _ => hu, fun h => absurd rfl h⟩
    · rw [if_neg hw]
      exact gr_ret fun u hu => by subst hu; exact ⟨(fun h => by cases h), fun _ => ht⟩
  · rw [if_neg hl]
    exact STri.undefined

theorem secured_oneChunk {a b c f : UInt8} {channel : UInt32} {data d : List UInt8} (hn : Lettered [a, b, c])
    (h : frame garbage (secEnc a b c f channel data) = .ok d) : OneChunk d := by
  by_cases hl : data.length ≤ 4084
  · rw [C45_secured _ _ _ _ _ _ _ hl] at h
    injection h with h
    subst h
    have hlen : ([a, b, c, f] ++ leBytes 4 (data.length + 12) ++ leBytes 4 channel.toNat ++ data).length = data.length + 12 := by
      simp only [List.length_append, MsgStorage.length_leBytes, List.length_cons, List.length_nil]
      omega
    refine ⟨?_, ⟨by omega, ?_⟩, by omega⟩
    · simpa [Lettered] using hn
    · rw [hlen]
      have hb : ∀ n, (leBytes 4 n) = [UInt8.ofNat n, UInt8.ofNat (n / 256), UInt8.ofNat (n / 256 / 256), UInt8.ofNat (n / 256 / 256 / 256)] := fun n => rfl
      unfold sizeField
      rw [hb]
      simp only [List.cons_append, List.nil_append, List.getD_cons_succ, List.getD_cons_zero, UInt8.toNat_ofNat']
      omega
  · rw [C45_secured_overflow _ _ _ _ _ _ _ (by omega)] at h
    cases h

/-- Served and connected, after any result. -/
theorem gr_sendSecured {a b c f : UInt8} {channel : UInt32} {data : List UInt8} (hn : Lettered [a, b, c]) :
    Gr k (In .served .connected) (sendSecured k e a b c f channel data) fun _ => In .served .connected := by
  intro s hs
  unfold sendSecured
  cases hf : frame garbage (secEnc a b c f channel data) with
  | ok d =>
    have hd : Greet.next .served (.sent d) = some .served := if_pos (secured_oneChunk hn hf)
    refine STri.weaken (gr_linkSend hd) (fun _ h => h) (fun r s h => ?_) s hs
    refine ⟨?_, h.2⟩
    by_cases hr : r = .done
    · exact h.1.1 hr
    · exact h.1.2 hr
  | throws => exact hs.all fun t ht => ht.apt rfl
  | abort => trivial
  | ub => trivial

theorem gr_answered {r : Res} : STri AllApt (But k (In .served .connected)) (answered k r) fun _ => AllApt := by
  cases r
  case done => exact STri.ret fun s hs => hs.all fun t ht => ht.apt rfl
  case noerror => exact gr_post gr_fail fun _ t ht => ht.apt rfl
  case error => exact gr_post gr_fail fun _ t ht => ht.apt rfl

theorem apt_in {t : Tcp} (h : Apt t) : In (phase t.st) t.st t := ⟨h, rfl⟩

theorem gr_onReceive {m : Down} : STri AllApt (But k Apt) (onReceive k e m) fun _ => AllApt := by
  refine gr_self fun t ht => ?_
  have hi := apt_in ht
  cases hst : t.st
  case init => exact STri.ret fun s hs => hs.all fun u hu => by subst hu; exact ht
  case hello => exact STri.ret fun s hs => hs.all fun u hu => by subst hu; exact ht
  case connected =>
    rw [hst] at hi
    refine gr_pre (P := In .served .connected) ?_ fun u hu => by subst hu; exact hi
    cases m with
    | openRsp c f d =>
      refine STri.bind (R := fun _ => But k (In .served .connected)) ?_ fun _ => gr_answered
      refine STri.bind (gr_conn (Q := In .served .connected) fun u hu => hu) fun _ => ?_
      exact STri.bind (gr_note (Q := In .served .connected) fun u hu => ⟨hu.1.snoc rfl, hu.2⟩) fun _ => gr_sendSecured (by decide)
    | closeRsp c f d =>
      refine STri.bind (R := fun _ => But k (In .served .connected)) ?_ fun _ => gr_answered
      refine gr_self fun u hu => ?_
      split
      · exact gr_pre (gr_sendSecured (by decide)) fun v hv => by subst hv; exact hu
      · exact gr_ret fun v hv => by subst hv; exact hu
    | sendReq c f d =>
      refine STri.bind (R := fun _ => But k (In .served .connected)) ?_ fun _ => gr_answered
      refine gr_self fun u hu => ?_
      split
      · exact gr_pre (gr_sendSecured (by decide)) fun v hv => by subst hv; exact hu
      · exact gr_ret fun v hv => by subst hv; exact hu
    | releaseReq =>
      refine STri.bind (gr_note (Q := In .served .connected) fun u hu => ⟨hu.1.snoc rfl, hu.2⟩) fun _ => ?_
      exact gr_post (gr_toInit (by decide) rfl) fun _ t ht => ht.apt rfl

theorem gr_receiveRx {p : Greet} {st : TSt} (hp : phase st = p) : Gr k (In p st) (receiveRx k e) fun _ => In p st := by
  refine gr_self fun t ht => ?_
  by_cases hl : t.link = true
  · rw [if_pos hl]
    refine STri.bind (gr_lift (Q := fun _ => In p st) (fun a _ u hu => by subst hu; exact ht) fun u hu => by subst hu; exact ht.apt hp) fun x => ?_
    exact STri.bind (gr_conn (Q := In p st) fun u hu => hu) fun _ => gr_ret fun _ h => h
  · rw [if_neg hl]
    by_cases hz : 1024 < t.rx.size
    · rw [if_pos hz]
      exact gr_ret fun u hu => by subst hu; exact ht
    · rw [if_neg hz]
      exact STri.undefined

theorem gr_decodeHello : Gr k (In .silent .hello) (decodeHello k) fun _ => In .silent .hello := by
  refine gr_self fun t ht => ?_
  cases hd : handshakeDec .server t.rx with
  | ok x => exact gr_conn fun u hu => by subst hu; exact ht
  | throws =>
    refine STri.bind (gr_conn (Q := In .silent .hello) fun u hu => by subst hu; exact ht) fun _ => ?_
    exact STri.throws fun s hs => hs.all fun u hu => hu.apt rfl
  | abort => exact gr_lift (fun _ h => by cases h) fun u hu => by subst hu; exact ht.apt rfl
  | ub => exact STri.undefined

theorem gr_receiveHello : Gr k (In .silent .hello) (receiveHello k e)
    fun r t => (r = .done → In .served .hello t) ∧ (r ≠ .done → In .silent .hello t) := by
  refine STri.bind (gr_receiveRx rfl) fun x => ?_
  cases x
  case noerror => exact gr_ret fun _ h => ⟨(fun h' => by cases h'), fun _ => h⟩
  case error => exact gr_ret fun _ h => ⟨(fun h' => by cases h'), fun _ => h⟩
  case done =>
    refine STri.bind gr_decodeHello fun _ => ?_
    refine STri.bind (R := fun f => But k fun t => f = ackFrame ∧ In .silent .hello t) ?_ fun f => ?_
    · rw [show frame garbage ackEnc = .ok ackFrame from C45_acknowledge garbage]
      exact gr_lift (fun a ha t ht => ⟨(Exec.ok.inj ha).symm, ht⟩) fun t ht => ht.apt rfl
    · intro s hs
      obtain ⟨⟨rfl, h1⟩, h2⟩ := hs
      exact gr_linkSend (p := .silent) (q := .served) (d := ackFrame) rfl s ⟨h1, h2⟩

theorem gr_forward {ty : SecType} {h : UaMessageHeader} : Gr k (In .served .connected) (forward k ty h) fun _ => In .served .connected := by
  have up : ∀ {x : Exec (List UInt8)} {g : List UInt8 → Up} {t : Tcp}, In .served .connected t → Gr k (· = t) (do
      let d ← SM.lift x
      note k (.up (g d))
      pure Res.done) fun _ => In .served .connected := by
    intro x g t ht
    refine STri.bind (gr_lift (Q := fun _ => In .served .connected) (fun _ _ u hu => by subst hu; exact ht) fun u hu => by subst hu; exact ht.apt rfl) fun d => ?_
    exact STri.bind (gr_note (Q := In .served .connected) fun u hu => ⟨hu.1.snoc rfl, hu.2⟩) fun _ => gr_ret fun _ h => h
  refine gr_self fun t ht => ?_
  cases ty
  · show Gr k _ (if t.assoc = some h.secureChannelId then _ else _) _
    split
    · exact up ht
    · exact gr_ret fun u hu => by subst hu; exact ht
  · exact up ht
  · show Gr k _ (if t.assoc = some h.secureChannelId then _ else _) _
    split
    · exact up ht
    · exact gr_ret fun u hu => by subst hu; exact ht
  · exact gr_ret fun u hu => by subst hu; exact ht

theorem gr_receiveSecured : Gr k (In .served .connected) (receiveSecuredMessage k e) fun _ => In .served .connected := by
  refine STri.bind (gr_receiveRx rfl) fun x => ?_
  cases x
  case noerror => exact gr_ret fun _ h => h
  case error => exact gr_ret fun _ h => h
  case done =>
    refine gr_self fun t ht => ?_
    refine STri.bind (gr_lift (Q := fun _ => In .served .connected) (fun _ _ u hu => by subst hu; exact ht) fun u hu => by subst hu; exact ht.apt rfl) fun r => ?_
    exact STri.bind (gr_conn (Q := In .served .connected) fun u hu => hu) fun _ => gr_forward

theorem gr_onData : STri AllApt (But k Apt) (onData k e) fun _ => AllApt := by
  refine gr_self fun t ht => ?_
  have hi := apt_in ht
  cases hst : t.st
  case init => exact STri.ret fun s hs => hs.all fun u hu => by subst hu; exact ht
  case hello =>
    rw [hst] at hi
    refine gr_pre (P := In .silent .hello) ?_ fun u hu => by subst hu; exact hi
    refine STri.bind gr_receiveHello fun x => ?_
    cases x
    case noerror => exact STri.ret fun s hs => hs.all fun u hu => (hu.2 (by decide)).apt rfl
    case done => exact gr_post (gr_pre (gr_waits (p := .served) (by decide) rfl) fun u hu => hu.1 rfl) fun _ t ht => ht.apt rfl
    case error => exact gr_post (gr_pre (gr_toInit (p := .silent) (st := .hello) (by decide) rfl) fun u hu => hu.2 (by decide)) fun _ t ht => ht.apt rfl
  case connected =>
    rw [hst] at hi
    refine gr_pre (P := In .served .connected) ?_ fun u hu => by subst hu; exact hi
    refine STri.bind gr_receiveSecured fun x => ?_
    cases x
    case noerror => exact STri.ret fun s hs => hs.all fun u hu => hu.apt rfl
    case done =>
      refine STri.bind (gr_startTimer (P := In .served .connected) (fun _ h => h) fun _ h => h.apt rfl) fun _ => ?_
      exact gr_post (gr_conn (Q := In .served .connected) fun _ h => h) fun _ t ht => ht.apt rfl
    case error => exact gr_post gr_fail fun _ t ht => ht.apt rfl

theorem gr_onTimer : STri AllApt (But k Apt) (onTimer k) fun _ => AllApt := by
  refine STri.bind (gr_conn (Q := Apt) fun _ h => h) fun _ => gr_self fun t ht => ?_
  have hi := apt_in ht
  cases hst : t.st
  case init => exact STri.ret fun s hs => hs.all fun u hu => by subst hu; exact ht
  case hello =>
    rw [hst] at hi
    exact gr_post (gr_pre (gr_toInit (p := .silent) (st := .hello) (by decide) rfl) fun u hu => by subst hu; exact hi) fun _ t ht => ht.apt rfl
  case connected =>
    rw [hst] at hi
    exact gr_post (gr_pre gr_fail fun u hu => by subst hu; exact hi) fun _ t ht => ht.apt rfl

theorem gr_onAcceptLink : STri AllApt (But k Apt) (onAcceptLink k e) fun _ => AllApt := by
  refine gr_self fun t ht => ?_
  have hi := apt_in ht
  cases hst : t.st
  case hello => exact STri.ret fun s hs => hs.all fun u hu => by subst hu; exact ht
  case connected => exact STri.ret fun s hs => hs.all fun u hu => by subst hu; exact ht
  case init =>
    rw [hst] at hi
    refine STri.bind (gr_conn (Q := In .away .init) fun u hu => by subst hu; exact hi) fun _ => ?_
    refine STri.bind (R := fun _ => But k (In .away .init)) ?_ fun _ => ?_
    · unfold allocTimer
      split
      · exact gr_conn fun u hu => hu
      · exact STri.throws fun s hs => hs.all fun u hu => hu.apt rfl
    · refine STri.bind (gr_note (Q := In .silent .init) fun u hu => ⟨hu.1.snoc rfl, hu.2⟩) fun _ => ?_
      exact gr_post (gr_waits (p := .silent) (by decide) rfl) fun _ t ht => ht.apt rfl

end handlers

theorem AllApt.but {s : Srv} (h : AllApt s) (k : Nat) : But k Apt s := ⟨h k, fun j _ => h j⟩

theorem gr_event {e : TEnv} {v : TEv} : STri AllApt AllApt (event e v) fun _ => AllApt := by
  cases v with
  | accept =>
    refine STri.bind (R := fun _ => AllApt) ?_ fun _ => STri.bind (R := fun _ => AllApt) ?_ fun r => ?_
    · unfold takeLink
      split
      · exact STri.ret fun _ h => h
      · exact STri.throws fun _ h => h
    · intro s hs
      unfold allocId
      cases Pool.alloc s.ids with
      | ok x => exact hs
      | throws => exact hs
      | abort => trivial
      | ub => trivial
    · cases r with
      | none => exact STri.ret fun _ h => h
      | some k => exact gr_onAcceptLink.weaken (fun _ h => h.but k) fun _ _ h => h
  | linkData k => exact gr_onData.weaken (fun _ h => h.but k) fun _ _ h => h
  | linkError k =>
    have h : STri AllApt (But k Apt) (onError k) fun _ => AllApt := gr_post (gr_conn (P := Apt) (Q := Apt) fun _ h => h) fun _ _ h => h
    exact h.weaken (fun _ h => h.but k) fun _ _ h => h
  | timer k => exact gr_onTimer.weaken (fun _ h => h.but k) fun _ _ h => h
  | down k m =>
    show STri AllApt AllApt (if Pool.valid k then onReceive k e m else SM.undefined) _
    split
    · exact gr_onReceive.weaken (fun _ h => h.but k) fun _ _ h => h
    · exact STri.undefined

theorem next_apt {s s' : Srv} {e : TEnv} {v : TEv} (h : AllApt s) (hn : next s e v = .ok s') : AllApt s' := by
  have := gr_event (e := e) (v := v) s h
  unfold next at hn
  cases hx : event e v s with
  | mk r t =>
    rw [hx] at this hn
    cases r with
    | ok a => injection hn with hn; subst hn; exact this
    | throws => injection hn with hn; subst hn; exact this
    | abort => cases hn
    | ub => cases hn

variable {m : Nat → Mem} {evs : List (TEnv × TEv)} {s : Srv}

/-- C98 (order): in every history every connection goes through the phases in order: nothing is written to a peer before Acknowledge, and
nothing of a peer is handed up, and no channel bound, before that; afterwards each write is one whole chunk of a secure channel of at most
4096 bytes.  The phase is told by the state. -/
theorem C98_order (h : Srv.Reach m evs s) (k : Nat) : Greet.run .away (s.conns k).log = some (phase (s.conns k).st) := by
  suffices AllApt s from this k
  induction h with
  | create h =>
    obtain ⟨q, hq, h⟩ := Exec.bind_eq_ok.mp h
    injection h with h
    subst h
    intro k
    rfl
  | step _ _ hn ih => exact next_apt ih hn

/-! ## What makes a connection serve -/

/-- A connection that is not connected does not become so. -/
def Waits (k : Nat) (s s' : Srv) : Prop := (s.conns k).st ≠ .connected → (s'.conns k).st ≠ .connected

theorem waits_path {k : Nat} : Path (Waits k) := ⟨fun _ h => h, fun h1 h2 h => h2 (h1 h)⟩

section

variable {k : Nat} {e : TEnv}

theorem wt_conn {f : Tcp → Tcp} (h : ∀ t : Tcp, t.st ≠ .connected → (f t).st ≠ .connected) : Along (Waits k) (conn k f) :=
  ⟨fun s hs => by
    have he : (s.set k (f (s.conns k))).conns k = f (s.conns k) := if_pos rfl
    show ((s.set k (f (s.conns k))).conns k).st ≠ _
    rw [he]
    exact h _ hs⟩

theorem wt_self {α : Type} {g : Tcp → SM Srv α} (h : ∀ t, Along (Waits k) (g t)) : Along (Waits k) (self k >>= g) := ⟨fun s => (h _).post s⟩

theorem wt_stopTimer : Along (Waits k) (stopTimer k) := by
  refine wt_self fun t => ?_
  split
  · exact wt_conn fun _ h => h
  · exact .undefined

theorem wt_toInit : Along (Waits k) (toInit k) := by
  refine wt_self fun t => ?_
  split
  · exact .ret waits_path
  · refine .bind waits_path ?_ fun _ => .bind waits_path (wt_conn fun _ _ h => by cases h) fun _ => .bind waits_path (wt_conn fun _ h => h) fun _ =>
      .bind waits_path (wt_conn fun _ h => h) fun _ => ⟨fun s => ?_⟩
    · cases t.st
      · exact .ret waits_path
      · exact wt_stopTimer
      · exact wt_stopTimer
    · unfold releaseId
      cases Pool.release s.ids k with
      | ok q => exact fun h => h
      | throws => exact fun h => h
      | abort => trivial
      | ub => trivial

/-- Data does not make connection `k` serve unless a chunk is complete. -/
theorem data_waits {s s' : Srv} (hst : (s.conns k).st = .hello) (hl : (s.conns k).link = true)
    (hr : ∀ b, receive (s.conns k).opened e.rx (s.conns k).rx ≠ .ok (.done, b)) (hn : settle (onData k e s) = .ok s') : (s'.conns k).st ≠ .connected := by
  have h0 : (s.conns k).st ≠ .connected := by rw [hst]; decide
  cases hx : receive (s.conns k).opened e.rx (s.conns k).rx with
  | ok x =>
    obtain ⟨r, b⟩ := x
    have hrx : receiveRx k e s = (.ok r, s.set k { (s.conns k) with rx := b }) := by
      simp only [receiveRx, bind_run, self, andThen, hl, if_true, hx, lift, conn, SM.modify, pure_run]
    have h1 : ((s.set k { (s.conns k) with rx := b }).conns k).st ≠ .connected := by
      simp only [Srv.set, if_pos]; exact h0
    cases r
    case noerror =>
      have hd : onData k e s = (.ok (), s.set k { (s.conns k) with rx := b }) := by
        simp only [onData, bind_run, self, andThen, hst, receiveHello, hrx, pure_run]
      rw [hd] at hn
      injection hn with hn
      subst hn
      exact h1
    case error =>
      have hd : onData k e s = toInit k (s.set k { (s.conns k) with rx := b }) := by
        simp only [onData, bind_run, self, andThen, hst, receiveHello, hrx, pure_run]
      rw [hd] at hn
      exact wt_toInit.settled hn h1
    case done => exact absurd hx (hr b)
  | throws =>
    have : onData k e s = (.throws, s) := by
      simp only [onData, bind_run, self, andThen, hst, receiveHello, receiveRx, hl, if_true, hx, lift]
    rw [this] at hn
    injection hn with hn
    subst hn
    exact h0
  | abort =>
    have : onData k e s = (.abort, s) := by
      simp only [onData, bind_run, self, andThen, hst, receiveHello, receiveRx, hl, if_true, hx, lift]
    rw [this] at hn
    cases hn
  | ub =>
    have : onData k e s = (.ub, s) := by
      simp only [onData, bind_run, self, andThen, hst, receiveHello, receiveRx, hl, if_true, hx, lift]
    rw [this] at hn
    cases hn

end

/-- C98 (first message): a connection becomes connected by nothing else than the end of a chunk of its own peer. -/
theorem C98_first (h : Srv.Reach m evs s) {k : Nat} (hk : Pool.valid k) (hst : (s.conns k).st = .hello) {e : TEnv} {v : TEv} (hp : Possible s v)
    {s' : Srv} (hn : next s e v = .ok s') (hc : (s'.conns k).st = .connected) :
    v = .linkData k ∧ ∃ data b, e.rx = .ok data ∧ receive (s.conns k).opened e.rx (s.conns k).rx = .ok (.done, b) ∧ IsChunk b.bytes := by
  have h0 : (s.conns k).st ≠ .connected := by rw [hst]; decide
  have hl := (reach_live h hk (by rw [hst]; simp)).choose_spec.2.2.2.2
  by_cases hv : subject v = some k
  · cases v with
    | accept => cases hv
    | linkData j =>
      obtain rfl : j = k := Option.some.inj hv
      refine ⟨rfl, ?_⟩
      apply Classical.byContradiction
      intro hne
      refine data_waits hst hl.link (fun b hb => hne ?_) hn hc
      cases hx : e.rx with
      | ok data => exact ⟨data, b, rfl, by rw [← hx]; exact hb, receive_done_bytes hb⟩
      | na =>
        rw [hx] at hb
        unfold receive at hb
        split at hb <;> (try split at hb) <;> simp at hb
      | error =>
        rw [hx] at hb
        unfold receive at hb
        split at hb <;> (try split at hb) <;> simp at hb
    | linkError j =>
      obtain rfl : j = k := Option.some.inj hv
      exact absurd hc ((wt_conn fun _ h => h : Along (Waits j) (onError j)).settled hn h0)
    | timer j =>
      obtain rfl : j = k := Option.some.inj hv
      have h1 : ((s.set j { (s.conns j) with armed := false }).conns j).st = .hello := by simp only [Srv.set, if_pos]; exact hst
      have hd : onTimer j s = toInit j (s.set j { (s.conns j) with armed := false }) := by
        simp only [onTimer, bind_run, conn, SM.modify, andThen, self, h1]
      have hn : settle (onTimer j s) = .ok s' := hn
      rw [hd] at hn
      exact absurd hc (wt_toInit.settled hn (by rw [h1]; decide))
    | down j x =>
      obtain rfl : j = k := Option.some.inj hv
      have hn : settle ((if Pool.valid j then onReceive j e x else undefined : SM Srv Unit) s) = .ok s' := hn
      rw [if_pos hk] at hn
      have hd : onReceive j e x s = (.ok (), s) := by simp only [onReceive, bind_run, self, andThen, hst, pure_run]
      rw [hd] at hn
      injection hn with hn
      subst hn
      exact absurd hc h0
  · obtain ⟨ch, hch⟩ : ∃ ch : UInt32, ∀ j f d, v ≠ .down j (.openRsp ch f d) := by
      by_cases hx : ∃ j c f d, v = .down j (.openRsp c f d)
      · obtain ⟨j, c, f, d, rfl⟩ := hx
        refine ⟨c + 1, fun j' f' d' he => ?_⟩
        injection he with _ he
        injection he with he
        have : (c + 1).toNat = (c.toNat + 1) % 2 ^ 32 := UInt32.toNat_add c 1
        have := c.toNat_lt
        have := congrArg UInt32.toNat he
        omega
      · exact ⟨0, fun j f d he => hx ⟨j, 0, f, d, he⟩⟩
    obtain ⟨j, hj, -, hf, -⟩ := next_foot h hk (by rw [hst]; simp) hp hv hch hn
    rw [hf k (Ne.symm hj)] at hc
    exact absurd hc h0

/-! ## Any letters will do -/

/-- A chunk that begins with the four bytes `a`. -/
def lettered (a body : List UInt8) : List UInt8 := a ++ leBytes 4 (body.length + 8) ++ body

theorem lettered_length {a : List UInt8} (ha : a.length = 4) (body : List UInt8) : (lettered a body).length = body.length + 8 := by
  simp only [lettered, List.length_append, MsgStorage.length_leBytes, ha]
  omega

theorem lettered_chunk {a body : List UInt8} (ha : a.length = 4) (hn : body.length ≤ 4088) : IsChunk (lettered a body) := by
  refine ⟨by rw [lettered_length ha]; omega, ?_⟩
  rw [lettered_length ha]
  match a, ha with
  | [x, y, z, w], _ =>
    have hb : ∀ n, (leBytes 4 n) = [UInt8.ofNat n, UInt8.ofNat (n / 256), UInt8.ofNat (n / 256 / 256), UInt8.ofNat (n / 256 / 256 / 256)] := fun n => rfl
    unfold lettered sizeField
    rw [hb]
    simp only [List.cons_append, List.nil_append, List.getD_cons_succ, List.getD_cons_zero, UInt8.toNat_ofNat']
    omega

theorem lettered_decodes {b : Buf} {v : HelloMessage} {a body : List UInt8} (ha : a.length = 4) (hs : std false v body) (hn : body.length ≤ 4088)
    (hb : HoldsChunk b (lettered a body)) : ∃ b', handshakeDec .server b = .ok ((), b') := by
  obtain ⟨x, hx⟩ := Takes.header (Ua.init : MessageHeader) b (by rw [hb.1]; omega)
  have hd : dec (Ua.init : HelloMessage) { b with tail := b.tail + 8 } = .ok (v, Buf.skip { b with tail := b.tail + 8 } body.length) := by
    refine Accepts.acc v body hs _ (by show b.tail + 8 + _ ≤ 4096; rw [hb.1]; omega) ?_
    show memRead b.packet (b.tail + 8) body.length = body
    have hp := hb.2
    rw [hb.head, lettered_length ha, Nat.add_comm, memRead_split] at hp
    rw [hb.1]
    exact (List.append_inj hp (by
      rw [MsgStorage.length_memRead, List.length_append, MsgStorage.length_leBytes, ha])).2
  refine ⟨Buf.skip { b with tail := b.tail + 8 } body.length, ?_⟩
  show (dec (Ua.init : MessageHeader) >>= fun _ => dec (Ua.init : HelloMessage) >>= fun _ => pure () : Codec Unit) b = _
  rw [Codec.bind_run, hx, Exec.ok_bind]
  show (dec (Ua.init : HelloMessage) >>= fun _ => pure () : Codec Unit) _ = _
  rw [Codec.bind_run, hd, Exec.ok_bind]
  rfl

/-- Against C98: the first message need not be a Hello.  Whatever four bytes stand in the place of its type and its chunk mark, the peer is
greeted and served (the test is commented out, UaTcpConnection.cpp:230-236). -/
theorem C98_letters_violated (h : Srv.Reach m evs s) {k : Nat} (hk : Pool.valid k) (hst : (s.conns k).st = .hello) (ho : (s.conns k).opened = true)
    (hz : (s.conns k).rx.tail = 0) (hh : (s.conns k).rx.head = 0) {e : TEnv} (h1 : e.starts = true) (h2 : e.writes = true) {v : HelloMessage}
    {a body : List UInt8} (ha : a.length = 4) (hs : std false v body) (hn : body.length ≤ 4088) (hrx : e.rx = .ok (lettered a body)) :
    ∃ s', next s e (.linkData k) = .ok s' ∧ (s'.conns k).st = .connected ∧ (s'.conns k).log = (s.conns k).log ++ [.sent ackFrame] := by
  have hl := (reach_live h hk (by rw [hst]; simp)).choose_spec.2.2.2.2
  have hmem := memRead_append (s.conns k).rx [] (lettered a body) (by rw [hh]; rfl)
  have hr : receive true e.rx (s.conns k).rx = .ok (.done, (s.conns k).rx.append (lettered a body)) := by
    rw [hrx]
    have := lettered_length ha body
    exact receive_ok (by omega) (by omega) (evaluate_prefix ((s.conns k).rx.append (lettered a body)) (lettered a body) [] hz hmem
      (by rw [List.append_nil]; exact lettered_chunk ha hn))
  obtain ⟨b', hd⟩ := lettered_decodes ha hs hn (b := (s.conns k).rx.append (lettered a body)) ⟨hz, hmem⟩
  refine ⟨s.set k { (s.conns k) with st := .connected, armed := true, rx := b'.reset, log := (s.conns k).log ++ [.sent ackFrame] }, ?_, by simp [Srv.set], by simp [Srv.set]⟩
  have : onData k e s = (.ok (), s.set k { (s.conns k) with st := .connected, armed := true, rx := b'.reset, log := (s.conns k).log ++ [.sent ackFrame] }) := by
    simp only [onData, bind_run, self, andThen, hst, receiveHello, receiveRx, hl.link, if_true, ho, hr, lift, conn, SM.modify, pure_run, Srv.set, decodeHello, hd, sendAcknowledge,
      C45_acknowledge, linkSend, h2, Bool.and_self, note, toConnected, transit, exit, stopTimer, hl.timer]
    simp only [reduceCtorEq, if_false, if_true, andThen, bind_run, SM.modify, self, startTimer, h1, conn, receivePreaction, Srv.set]
    refine congrArg (Prod.mk _) ?_
    simp only [Srv.mk.injEq, true_and]
    funext i
    by_cases hi : i = k <;> simp [hi, ackFrame]
  show settle (onData k e s) = _
  rw [this]
  rfl

/-! ## Examples -/

/-- C98: the phases of the connection of `talk`. -/
example : Greet.run .away talkLog = some .served ∧ Greet.run .away (talkLog.take 1) = some .silent ∧
    Greet.run .away (.accepted :: talkLog.drop 2) = none := by decide +kernel

example : ∃ s, Srv.Reach (fun _ => garbage) talk s ∧ Greet.run .away (s.conns 1).log = some .served ∧ (s.conns 1).log = talkLog := by
  obtain ⟨s, h, hv⟩ := observe_reach talk_runs
  have h1 : (s.conns 1).st = .connected := congrArg View.st hv
  refine ⟨s, h, ?_, congrArg View.log hv⟩
  rw [C98_order h 1, h1]
  rfl

/-- C98: `talk` up to the Hello and with the Hello. -/
def awaits : Exec (TSt × Bool × Nat × Nat) := do
  let s ← Srv.create fun _ => garbage
  let s' ← run s (talk.take 1)
  pure ((s'.conns 1).st, (s'.conns 1).opened, (s'.conns 1).rx.tail, (s'.conns 1).rx.head)

theorem awaits_runs : ∃ s, Srv.Reach (fun _ => garbage) (talk.take 1) s ∧ (s.conns 1).st = .hello ∧ (s.conns 1).opened = true ∧ (s.conns 1).rx.tail = 0 ∧
    (s.conns 1).rx.head = 0 := by
  have h : awaits = .ok (.hello, true, 0, 0) := by decide +kernel
  obtain ⟨s, h1, h2⟩ := Exec.bind_eq_ok.mp h
  obtain ⟨s', h3, h4⟩ := Exec.bind_eq_ok.mp h2
  injection h4 with h4
  refine ⟨s', run_reach (.create h1) h3, ?_⟩
  injection h4 with a1 h4
  injection h4 with a2 h4
  injection h4 with a3 a4
  exact ⟨a1, a2, a3, a4⟩

/-- The Hello makes it connected, and what came before it was a whole chunk; a close message (`CLOF`) in front of the same body does, too. -/
example : ∃ s s', Srv.Reach (fun _ => garbage) (talk.take 1) s ∧ next s { calm with rx := .ok (lettered [67, 76, 79, 70] (Wire.wire Stack.guestHello)) } (.linkData 1) = .ok s' ∧
    (s'.conns 1).st = .connected ∧ (s'.conns 1).log = (s.conns 1).log ++ [.sent ackFrame] ∧
    ∃ data b, calm.rx ≠ .ok data ∧ receive (s.conns 1).opened (.ok data) (s.conns 1).rx = .ok (.done, b) ∧ IsChunk b.bytes := by
  obtain ⟨s, h, h1, h2, h3, h4⟩ := awaits_runs
  obtain ⟨s', hn, hc, hl⟩ := C98_letters_violated h (k := 1) (by decide) h1 h2 h3 h4 (e := { calm with rx := .ok (lettered [67, 76, 79, 70] (Wire.wire Stack.guestHello)) }) rfl rfl
    rfl (Accepts.canon Stack.guestHello ⟨trivial, trivial, trivial, trivial, trivial, Session.str_ok _ (by decide)⟩) (by show (Wire.wire Stack.guestHello).length ≤ _; decide +kernel) rfl
  obtain ⟨-, data, b, hd, hr, hb⟩ := C98_first h (by decide) h1 (show Possible s (.linkData 1) from ⟨by decide, (reach_live h (by decide) (by rw [h1]; simp)).choose_spec.2.2.2.2.link⟩) hn hc
  exact ⟨s, s', h, hn, hc, hl, data, b, by simp [calm], by rw [← hd]; exact hr, hb⟩

end Uscada.Ua.Transport
