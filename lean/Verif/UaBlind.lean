import Verif.UaSurviveProps
/-!
# C90: what uninitialised memory has to do with the answers

Two runs of the OPC UA server that differ in uninitialised memory only: receive buffers (UaTcpConnection.hpp), the members
`receivedSequenceNum` and `channelToken` of channels, and the buffers on the stack that the components decode from
(UaServerSecureChannel.cpp:41, UaService.cpp:36).  The runs are followed step by step; `Sim` relates the outcomes of the same
handler in both.
-/

namespace Uscada.SM

variable {σ α β : Type}

/-- What is asked of two outcomes: if the first is a return or an exception, so is the second, and the states are related. -/
def Pair (T : σ → σ → Prop) (Q : α → α → σ → σ → Prop) : Exec α × σ → Exec α × σ → Prop
  | (.ok a, c), (.ok a', c') => Q a a' c c'
  | (.throws, c), (.throws, c') => T c c'
  | (.abort, _), _ => True
  | (.ub, _), _ => True
  | _, _ => False

/-- From related states the operations `m` and `m'` lead to related states. -/
def Sim (T P : σ → σ → Prop) (m m' : SM σ α) (Q : α → α → σ → σ → Prop) : Prop := ∀ c c', P c c' → Pair T Q (m c) (m' c')

namespace Sim

variable {T P : σ → σ → Prop}

theorem bind {m m' : SM σ α} {f f' : α → SM σ β} {R : α → α → σ → σ → Prop} {Q : β → β → σ → σ → Prop}
    (h1 : Sim T P m m' R) (h2 : ∀ a a', Sim T (R a a') (f a) (f' a') Q) : Sim T P (m >>= f) (m' >>= f') Q := by
  intro c c' hc
  have h := h1 c c' hc
  rw [bind_run, bind_run]
  match hm : m c, hm' : m' c' with
  | (.ok a, d), (.ok a', d') => rw [hm, hm'] at h; exact h2 a a' d d' h
  | (.throws, d), (.throws, d') => rw [hm, hm'] at h; exact h
  | (.abort, _), _ => exact trivial
  | (.ub, _), _ => exact trivial
  | (.ok _, _), (.throws, _) => rw [hm, hm'] at h; exact h.elim
  | (.ok _, _), (.abort, _) => rw [hm, hm'] at h; exact h.elim
  | (.ok _, _), (.ub, _) => rw [hm, hm'] at h; exact h.elim
  | (.throws, _), (.ok _, _) => rw [hm, hm'] at h; exact h.elim
  | (.throws, _), (.abort, _) => rw [hm, hm'] at h; exact h.elim
  | (.throws, _), (.ub, _) => rw [hm, hm'] at h; exact h.elim

/-- The same value in both runs. -/
theorem andThen {m m' : SM σ α} {f f' : α → SM σ β} {R : σ → σ → Prop} {Q : β → β → σ → σ → Prop}
    (h1 : Sim T P m m' fun a a' c c' => a = a' ∧ R c c') (h2 : ∀ a, Sim T R (f a) (f' a) Q) : Sim T P (m >>= f) (m' >>= f') Q :=
  bind h1 fun a a' c c' h => by
    obtain ⟨rfl, h⟩ := h
    exact h2 a c c' h

theorem ret {Q : α → α → σ → σ → Prop} {a a' : α} (h : ∀ c c', P c c' → Q a a' c c') : Sim T P (pure a : SM σ α) (pure a') Q := h

theorem ret' {a : α} : Sim T P (pure a : SM σ α) (pure a) fun a a' c c' => a = a' ∧ P c c' := fun _ _ h => ⟨rfl, h⟩

theorem undefined {m' : SM σ α} {Q : α → α → σ → σ → Prop} : Sim T P (SM.undefined : SM σ α) m' Q := fun _ _ _ => trivial

theorem throws {Q : α → α → σ → σ → Prop} (h : ∀ c c', P c c' → T c c') : Sim T P (SM.throws : SM σ α) SM.throws Q := h

theorem lift {e : Exec α} (h : ∀ c c', P c c' → T c c') : Sim T P (SM.lift e) (SM.lift e) fun a a' c c' => a = a' ∧ P c c' := by
  intro c c' hc
  cases e with
  | ok a => exact ⟨rfl, hc⟩
  | throws => exact h _ _ hc
  | abort => trivial
  | ub => trivial

theorem weaken {P' T' : σ → σ → Prop} {m m' : SM σ α} {Q Q' : α → α → σ → σ → Prop} (h : Sim T P m m' Q) (hp : ∀ c c', P' c c' → P c c')
    (hq : ∀ a a' c c', Q a a' c c' → Q' a a' c c') (ht : ∀ c c', T c c' → T' c c') : Sim T' P' m m' Q' := by
  intro c c' hc
  have h := h c c' (hp c c' hc)
  match hm : m c, hm' : m' c' with
  | (.ok a, d), (.ok a', d') => rw [hm, hm'] at h; exact hq a a' d d' h
  | (.throws, d), (.throws, d') => rw [hm, hm'] at h; exact ht d d' h
  | (.abort, _), _ => exact trivial
  | (.ub, _), _ => exact trivial
  | (.ok _, _), (.throws, _) => rw [hm, hm'] at h; exact h.elim
  | (.ok _, _), (.abort, _) => rw [hm, hm'] at h; exact h.elim
  | (.ok _, _), (.ub, _) => rw [hm, hm'] at h; exact h.elim
  | (.throws, _), (.ok _, _) => rw [hm, hm'] at h; exact h.elim
  | (.throws, _), (.abort, _) => rw [hm, hm'] at h; exact h.elim
  | (.throws, _), (.ub, _) => rw [hm, hm'] at h; exact h.elim

theorem pre {P' : σ → σ → Prop} {m m' : SM σ α} {Q : α → α → σ → σ → Prop} (h : Sim T P m m' Q) (hp : ∀ c c', P' c c' → P c c') :
    Sim T P' m m' Q := h.weaken hp (fun _ _ _ _ h => h) (fun _ _ h => h)

/-- The value does not matter. -/
theorem drop {R : σ → σ → Prop} {m m' : SM σ α} (h : Sim T P m m' fun a a' c c' => a = a' ∧ R c c') : Sim T P m m' fun _ _ => R :=
  h.weaken (fun _ _ h => h) (fun _ _ _ _ h => h.2) (fun _ _ h => h)

/-- What the reactor sees. -/
theorem settled {R : σ → σ → Prop} {m m' : SM σ α} (h : Sim R P m m' fun _ _ => R) {c c' d : σ} (hc : P c c') (hd : settle (m c) = .ok d) :
    ∃ d', settle (m' c') = .ok d' ∧ R d d' := by
  have h := h c c' hc
  match hm : m c, hm' : m' c' with
  | (.ok a, e), (.ok a', e') =>
    rw [hm, hm'] at h
    rw [hm] at hd
    injection hd with hd
    exact ⟨e', rfl, hd ▸ h⟩
  | (.throws, e), (.throws, e') =>
    rw [hm, hm'] at h
    rw [hm] at hd
    injection hd with hd
    exact ⟨e', rfl, hd ▸ h⟩
  | (.abort, _), _ => rw [hm] at hd; cases hd
  | (.ub, _), _ => rw [hm] at hd; cases hd
  | (.ok _, _), (.throws, _) => rw [hm, hm'] at h; exact h.elim
  | (.ok _, _), (.abort, _) => rw [hm, hm'] at h; exact h.elim
  | (.ok _, _), (.ub, _) => rw [hm, hm'] at h; exact h.elim
  | (.throws, _), (.ok _, _) => rw [hm, hm'] at h; exact h.elim
  | (.throws, _), (.abort, _) => rw [hm, hm'] at h; exact h.elim
  | (.throws, _), (.ub, _) => rw [hm, hm'] at h; exact h.elim

end Sim

end Uscada.SM

namespace Uscada.Ua

open SM

/-! ## Bytes that were not received -/

/-- The last `n` bytes forgotten. -/
def blank (n : Nat) (d : List UInt8) : List UInt8 := d.take (d.length - n) ++ List.replicate (min n d.length) 0

theorem blank_length (n : Nat) (d : List UInt8) : (blank n d).length = d.length := by
  unfold blank
  rw [List.length_append, List.length_take, List.length_replicate]
  omega

theorem blank_append {n : Nat} (w : List UInt8) {y : List UInt8} (h : y.length = n) : blank n (w ++ y) = w ++ List.replicate n 0 := by
  unfold blank
  rw [List.length_append, h, Nat.add_sub_cancel, show w.length = w.length + 0 from rfl, List.take_length_add_append]
  simp

theorem blank_eq {n : Nat} {d d' : List UInt8} (h : blank n d = blank n d') : d'.length = d.length ∧ d'.take (d.length - n) = d.take (d.length - n) := by
  have hl : d'.length = d.length := by rw [← blank_length n d, ← blank_length n d', h]
  refine ⟨hl, ?_⟩
  unfold blank at h
  rw [hl] at h
  exact (List.append_inj h (by rw [List.length_take, List.length_take, hl])).1.symm

theorem blank_back {n j : Nat} {w y y' : List UInt8} (h : y.length = j) (h' : y'.length = j) (hj : j ≤ n) :
    blank n (w ++ y) = blank n (w ++ y') := by
  unfold blank
  rw [List.length_append, List.length_append, h, h']
  congr 1
  rw [List.take_append_of_le_length (by omega), List.take_append_of_le_length (by omega)]

namespace Transport

/-- The message without the bytes that were not received (12, C46). -/
def fade : Up → Up
  | .open c f d => .open c f (blank 12 d)
  | .message c f d => .message c f (blank 12 d)
  | .close c f d => .close c f (blank 12 d)
  | .released c => .released c

def blankAct : TAct → TAct
  | .up m => .up (fade m)
  | a => a

/-- Two connections that differ in bytes that were not received. -/
structure Twin (t t' : Tcp) : Prop where
  st : t'.st = t.st
  link : t'.link = t.link
  opened : t'.opened = t.opened
  timer : t'.timer = t.timer
  armed : t'.armed = t.armed
  assoc : t'.assoc = t.assoc
  head : t'.rx.head = t.rx.head
  tail : t'.rx.tail = t.rx.tail
  packet : memRead t'.rx.packet 0 t.rx.head = memRead t.rx.packet 0 t.rx.head
  log : t'.log.map blankAct = t.log.map blankAct

/-- Two servers. -/
structure Twins (s s' : Srv) : Prop where
  ids : s'.ids = s.ids
  conns : ∀ k, Twin (s.conns k) (s'.conns k)

/-- With connection `k` known. -/
def Is (k : Nat) (t t' : Tcp) (s s' : Srv) : Prop := Twins s s' ∧ s.conns k = t ∧ s'.conns k = t'

theorem Is.twin {k : Nat} {t t' : Tcp} {s s' : Srv} (h : Is k t t' s s') : Twin t t' := by
  have := h.1.conns k
  rw [h.2.1, h.2.2] at this
  exact this

section rules

variable {k : Nat} {α : Type}

/-- handlers: what goes in and comes out is related -/
abbrev Blind (m m' : SM Srv α) : Prop := Sim Twins Twins m m' fun a a' s s' => a = a' ∧ Twins s s'

theorem Twins.set {s s' : Srv} (h : Twins s s') {t t' : Tcp} (ht : Twin t t') : Twins (s.set k t) (s'.set k t') := by
  refine ⟨h.ids, fun j => ?_⟩
  unfold Srv.set
  by_cases hj : j = k
  · simp only [if_pos hj]
    exact ht
  · simp only [if_neg hj]
    exact h.conns j

theorem tw_conn {f f' : Tcp → Tcp} (h : ∀ t t', Twin t t' → Twin (f t) (f' t')) : Blind (conn k f) (conn k f') :=
  fun _ _ hs => ⟨rfl, hs.set (h _ _ (hs.conns k))⟩

theorem tw_is {f f' : Tcp → Tcp} {t t' : Tcp} (h : Twin (f t) (f' t')) :
    Sim Twins (Is k t t') (conn k f) (conn k f') fun _ _ => Is k (f t) (f' t') := by
  rintro s s' ⟨hs, rfl, rfl⟩
  exact ⟨hs.set h, if_pos rfl, if_pos rfl⟩

theorem tw_self {P : Srv → Srv → Prop} (hp : ∀ s s', P s s' → Twins s s') {f f' : Tcp → SM Srv α} {Q : α → α → Srv → Srv → Prop}
    (h : ∀ t t', Twin t t' → Sim Twins (fun s s' => P s s' ∧ Is k t t' s s') (f t) (f' t') Q) : Sim Twins P (self k >>= f) (self k >>= f') Q :=
  fun s s' hs => h _ _ ((hp _ _ hs).conns k) s s' ⟨hs, hp _ _ hs, rfl, rfl⟩

/-- read the connection, forget the rest -/
theorem tw_read {f f' : Tcp → SM Srv α} (h : ∀ t t', Twin t t' → Blind (f t) (f' t')) : Blind (self k >>= f) (self k >>= f') :=
  tw_self (fun _ _ h => h) fun t t' ht => (h t t' ht).pre fun _ _ h => h.1

theorem tw_note {a : TAct} : Blind (note k a) (note k a) :=
  tw_conn fun t t' h => { h with log := by simp only [List.map_append, h.log] }

theorem tw_ret {a : α} : Blind (pure a : SM Srv α) (pure a) := Sim.ret'

theorem tw_lift {e : Exec α} : Blind (lift e : SM Srv α) (lift e) := Sim.lift fun _ _ h => h

theorem tw_throws : Blind (throws : SM Srv α) throws := fun _ _ h => h

theorem tw_ub {m : SM Srv α} : Blind (undefined : SM Srv α) m := fun _ _ _ => trivial

theorem tw_then {β : Type} {m m' : SM Srv α} {f f' : α → SM Srv β} (h1 : Blind m m') (h2 : ∀ a, Blind (f a) (f' a)) :
    Blind (m >>= f) (m' >>= f') := Sim.andThen h1 h2

theorem tw_ite {p : Prop} [Decidable p] {m m' n n' : SM Srv α} (h1 : Blind m m') (h2 : Blind n n') :
    Blind (if p then m else n) (if p then m' else n') := by
  split
  · exact h1
  · exact h2

/-! ### Handlers that do not read the receive buffer -/

theorem tw_releaseId : Blind (releaseId k) (releaseId k) := by
  intro s s' hs
  unfold releaseId
  rw [hs.ids]
  split
  · exact ⟨rfl, rfl, hs.conns⟩
  · exact hs
  · trivial
  · trivial

theorem tw_allocId : Blind allocId allocId := by
  intro s s' hs
  unfold allocId
  rw [hs.ids]
  split
  · exact ⟨rfl, rfl, hs.conns⟩
  · exact hs
  · trivial
  · trivial

theorem tw_release : Blind (release k) (release k) :=
  tw_then (tw_conn fun t t' h => { h with link := rfl, opened := rfl, timer := rfl, armed := rfl, assoc := rfl }) fun _ =>
    tw_then tw_note fun _ => tw_releaseId

theorem tw_startTimer {e : TEnv} : Blind (startTimer k e) (startTimer k e) := by
  refine tw_read fun t t' h => ?_
  rw [h.timer]
  exact tw_ite (tw_ite (tw_conn fun t t' h => { h with armed := rfl }) tw_throws) tw_ub

theorem tw_stopTimer : Blind (stopTimer k) (stopTimer k) := by
  refine tw_read fun t t' h => ?_
  rw [h.timer]
  exact tw_ite (tw_conn fun t t' h => { h with armed := rfl }) tw_ub

theorem tw_preaction : Blind (receivePreaction k) (receivePreaction k) :=
  tw_conn fun t t' h => { h with head := rfl, tail := rfl, packet := rfl }

theorem tw_exit {st : TSt} : Blind (exit k st) (exit k st) := by
  cases st with
  | init => exact tw_ret
  | hello => exact tw_stopTimer
  | connected => exact tw_stopTimer

theorem tw_transit {target : TSt} {m : SM Srv Unit} (hm : Blind m m) : Blind (transit k target m) (transit k target m) := by
  refine tw_read fun t t' h => ?_
  rw [h.st]
  exact tw_ite tw_ret (tw_then tw_exit fun _ => tw_then (tw_conn fun t t' h => { h with st := rfl }) fun _ => hm)

theorem tw_toInit : Blind (toInit k) (toInit k) := tw_transit tw_release

theorem tw_toHello {e : TEnv} : Blind (toHello k e) (toHello k e) := tw_transit (tw_then tw_startTimer fun _ => tw_preaction)

theorem tw_toConnected {e : TEnv} : Blind (toConnected k e) (toConnected k e) := tw_transit (tw_then tw_startTimer fun _ => tw_preaction)

theorem tw_fail : Blind (fail k) (fail k) := by
  refine tw_then ?_ fun _ => tw_toInit
  refine tw_read fun t t' h => ?_
  rw [h.assoc]
  cases t.assoc with
  | none => exact tw_ret
  | some c => exact tw_note

theorem tw_linkSend {e : TEnv} {bytes : List UInt8} : Blind (linkSend k e bytes) (linkSend k e bytes) := by
  refine tw_read fun t t' h => ?_
  rw [h.link, h.opened]
  exact tw_ite (tw_ite (tw_then tw_note fun _ => tw_ret) tw_ret) tw_ub

theorem tw_sendSecured {e : TEnv} {a b c f : UInt8} {ch : UInt32} {d : List UInt8} :
    Blind (sendSecured k e a b c f ch d) (sendSecured k e a b c f ch d) := tw_then tw_lift fun _ => tw_linkSend

theorem tw_answered {r : Res} : Blind (answered k r) (answered k r) := by
  cases r with
  | done => exact tw_ret
  | noerror => exact tw_fail
  | error => exact tw_fail

theorem tw_onReceive {e : TEnv} {m : Down} : Blind (onReceive k e m) (onReceive k e m) := by
  refine tw_read fun t t' h => ?_
  rw [h.st]
  cases t.st with
  | init => exact tw_ret
  | hello => exact tw_ret
  | connected =>
    cases m with
    | openRsp c f d =>
      exact tw_then (tw_then (tw_conn fun t t' h => { h with assoc := rfl }) fun _ => tw_then tw_note fun _ => tw_sendSecured) fun _ => tw_answered
    | closeRsp c f d =>
      refine tw_then (tw_read fun t t' h => ?_) fun _ => tw_answered
      rw [h.assoc]
      exact tw_ite tw_sendSecured tw_ret
    | sendReq c f d =>
      refine tw_then (tw_read fun t t' h => ?_) fun _ => tw_answered
      rw [h.assoc]
      exact tw_ite tw_sendSecured tw_ret
    | releaseReq => exact tw_then tw_note fun _ => tw_toInit

theorem tw_onTimer : Blind (onTimer k) (onTimer k) := by
  refine tw_then (tw_conn fun t t' h => { h with armed := rfl }) fun _ => tw_read fun t t' h => ?_
  rw [h.st]
  cases t.st with
  | init => exact tw_ret
  | hello => exact tw_toInit
  | connected => exact tw_fail

theorem tw_onAccept {e : TEnv} : Blind (onAccept e) (onAccept e) := by
  refine tw_then (tw_ite tw_ret tw_throws) fun _ => tw_then tw_allocId fun r => ?_
  cases r with
  | none => exact tw_ret
  | some k =>
    refine tw_read fun t t' h => ?_
    rw [h.st]
    cases t.st with
    | init =>
      exact tw_then (tw_conn fun t t' h => { h with link := rfl, opened := rfl }) fun _ =>
        tw_then (tw_ite (tw_conn fun t t' h => { h with timer := rfl, armed := rfl }) tw_throws) fun _ => tw_then tw_note fun _ => tw_toHello
    | hello => exact tw_ret
    | connected => exact tw_ret

/-! ### Data -/

/-- Two buffers with the same received bytes. -/
structure Alike (b b' : Buf) : Prop where
  head : b'.head = b.head
  tail : b'.tail = b.tail
  packet : memRead b'.packet 0 b.head = memRead b.packet 0 b.head

theorem Alike.at {b b' : Buf} (h : Alike b b') {i : Nat} (hi : i < b.head) : b'.packet i = b.packet i := by
  have := congrArg (fun l => l.getD i 0) h.packet
  simp only [getD_memRead _ _ _ _ hi, Nat.zero_add] at this
  exact this

theorem Alike.read {b b' : Buf} (h : Alike b b') {off n : Nat} (hn : off + n ≤ b.head) : memRead b'.packet off n = memRead b.packet off n :=
  memRead_ext (MsgStorage.length_memRead ..) fun i hi => by rw [h.at (by omega), getD_memRead _ _ _ _ hi]

theorem Alike.skip {b b' : Buf} (h : Alike b b') (n : Nat) : Alike (b.skip n) (b'.skip n) :=
  ⟨h.head, by show b'.tail + n = b.tail + n; rw [h.tail], h.packet⟩

theorem Alike.evaluate {b b' : Buf} (h : Alike b b') (ht : b.tail = 0) : evaluate b' = evaluate b := by
  have hs : b'.size = b.size := h.head
  unfold Ua.evaluate
  rw [hs, h.tail]
  by_cases h8 : b.size < messageHeaderSize
  · rw [if_pos h8, if_pos h8]
  · have h8 : 8 ≤ b.head := Nat.le_of_not_lt h8
    have hm : msgSize b' = msgSize b := by
      rw [msgSize_eq, msgSize_eq, h.tail, h.read (by omega)]
    rw [hm]

theorem Alike.received {b b' : Buf} (h : Alike b b') (bytes : List UInt8) : Alike (b.received bytes) (b'.received bytes) := by
  have hc : b'.capacity = b.capacity := by unfold Buf.capacity; rw [h.head]
  have h1 := memRead_append b _ (bytes.take b.capacity) rfl
  have h2 := memRead_append b' _ (bytes.take b.capacity) rfl
  refine ⟨?_, h.tail, ?_⟩
  · show b'.head + _ = b.head + _
    rw [hc, h.head]
  · show memRead (memWrite b'.packet b'.head (bytes.take b'.capacity)) 0 (b.head + _) = memRead (b.append _).packet 0 (b.append _).head
    rw [hc, h1, ← h.packet, ← h.head]
    exact h2

theorem Alike.receive {b b' : Buf} (h : Alike b b') (ht : b.tail = 0) {op : Bool} {x : Modbus.Rx} {r : Res} {c : Buf}
    (hr : receive op x b = .ok (r, c)) : ∃ c', receive op x b' = .ok (r, c') ∧ Alike c c' := by
  have hs : b'.size = b.size := h.head
  unfold Ua.receive at hr ⊢
  rw [hs]
  split at hr
  · rename_i hx
    injection hr with hr
    injection hr with h1 h2
    subst h1 h2
    exact ⟨b', by rw [if_pos hx], h⟩
  · rename_i hx
    rw [if_neg hx]
    split at hr
    · rename_i ho
      rw [if_pos ho]
      cases x with
      | na =>
        injection hr with hr
        injection hr with h1 h2
        subst h1 h2
        exact ⟨b', rfl, h⟩
      | error =>
        injection hr with hr
        injection hr with h1 h2
        subst h1 h2
        exact ⟨b', rfl, h⟩
      | ok bytes =>
        obtain ⟨y, h1, h2⟩ := Exec.bind_eq_ok.mp hr
        injection h2 with h2
        injection h2 with h2 h3
        subst h2 h3
        refine ⟨b'.received bytes, ?_, h.received bytes⟩
        show (Ua.evaluate (b'.received bytes) >>= _) = _
        rw [(h.received bytes).evaluate ht, h1]
        rfl
    · rename_i ho
      rw [if_neg ho]
      injection hr with hr
      injection hr with h1 h2
      subst h1 h2
      exact ⟨b', rfl, h⟩

/-- What is done with a complete chunk is done with received bytes: a Hello has the 32 bytes in front of the url, a secured message
the 12 bytes of its header. -/
def Whole (t : Tcp) (x : Modbus.Rx) : Prop :=
  ∀ b, Ua.receive t.opened x t.rx = .ok (.done, b) → (t.st = .hello → 32 ≤ b.head) ∧ (t.st = .connected → 12 ≤ b.head)

theorem Twin.same {t t' : Tcp} (h : Twin t t') : Alike t.rx t'.rx := ⟨h.head, h.tail, h.packet⟩

theorem Twin.rx {t t' : Tcp} (h : Twin t t') {b b' : Buf} (hb : Alike b b') : Twin { t with rx := b } { t' with rx := b' } :=
  { h with head := hb.head, tail := hb.tail, packet := hb.packet }

theorem tw_receiveRx {t t' : Tcp} (h : Twin t t') (ht : t.rx.tail = 0) {e : TEnv} :
    Sim Twins (Is k t t') (receiveRx k e) (receiveRx k e) fun r r' s s' => r = r' ∧
      ∃ b b', Alike b b' ∧ b.tail = 0 ∧ (r = .done → Ua.receive t.opened e.rx t.rx = .ok (.done, b)) ∧
        Is k { t with rx := b } { t' with rx := b' } s s' := by
  unfold receiveRx
  refine tw_self (fun _ _ h => h.1) fun t1 t1' h1 => ?_
  rintro s s' ⟨hs, hs1⟩
  obtain rfl : t = t1 := hs.2.1.symm.trans hs1.2.1
  obtain rfl : t' = t1' := hs.2.2.symm.trans hs1.2.2
  by_cases hl : t.link = true
  · rw [if_pos hl, if_pos (h.link.trans hl)]
    obtain ⟨⟨r, b⟩, hr⟩ := C47_framing t.opened e.rx t.rx ht
    obtain ⟨b', hr', hb⟩ := h.same.receive ht hr
    rw [← h.opened] at hr'
    rw [bind_ok (lift_ok hr s), bind_ok (lift_ok hr' s')]
    refine Sim.bind (tw_is (h.rx hb)) (fun _ _ => ?_) s s' hs
    intro s s' hs
    exact ⟨rfl, b, b', hb, (receive_tail hr).trans ht, fun e => e ▸ hr, hs⟩
  · have hl' : ¬ t'.link = true := by rw [h.link]; exact hl
    rw [if_neg hl, if_neg hl', show t'.rx.size = t.rx.size from h.head]
    by_cases hz : 1024 < t.rx.size
    · rw [if_pos hz]
      exact ⟨rfl, t.rx, t'.rx, h.same, ht, (fun e => by cases e), hs⟩
    · rw [if_neg hz]
      trivial

theorem is_twins {t t' : Tcp} : ∀ s s', Is k t t' s s' → Twins s s' := fun _ _ h => h.1

theorem tw_hello {t t' : Tcp} (h : Twin t t') (ht : t.rx.tail = 0) (hst : t.st = .hello) {e : TEnv} (hp : Polite t e.rx) (hw : Whole t e.rx) :
    Sim Twins (Is k t t') (receiveHello k e) (receiveHello k e) fun r r' s s' => r = r' ∧ Twins s s' := by
  unfold receiveHello
  refine Sim.bind (tw_receiveRx h ht) fun r r' => ?_
  rintro s s' ⟨rfl, b, b', hb, hbt, hd, hs⟩
  cases r with
  | noerror => exact ⟨rfl, hs.1⟩
  | error => exact ⟨rfl, hs.1⟩
  | done =>
    have hd := hd rfl
    refine Sim.andThen (R := Twins) ?_ (fun _ => Sim.andThen tw_lift fun _ => tw_linkSend) s s' hs
    unfold decodeHello
    refine tw_self is_twins fun t1 t1' h1 => ?_
    rintro s s' ⟨hs, hs1⟩
    obtain rfl : _ = t1 := hs.2.1.symm.trans hs1.2.1
    obtain rfl : _ = t1' := hs.2.2.symm.trans hs1.2.2
    have hpol := (hp b hd).1 hst
    have hread : memRead b'.packet 28 4 = memRead b.packet 28 4 := hb.read ((hw b hd).1 hst)
    have e1 := hello_inside b hbt hpol
    have e2 := hello_inside b' (hb.tail.trans hbt) (by rw [hread]; exact hpol)
    rw [hread] at e2
    have hsame : Alike { b with tail := 28 + strSpan (leValue (memRead b.packet 28 4)) }
        { b' with tail := 28 + strSpan (leValue (memRead b.packet 28 4)) } := ⟨hb.head, rfl, hb.packet⟩
    have := tw_conn (k := k) (fun t t' h => h.rx hsame) s s' hs.1
    show Pair Twins (fun a a' s s' => a = a' ∧ Twins s s') ((match handshakeDec .server b with
      | .ok (_, b) => conn k fun t => { t with rx := b }
      | .throws => do
        conn k fun t => { t with rx := t.rx.skip 32 }
        throws
      | .abort => lift .abort
      | .ub => undefined : SM Srv Unit) s) ((match handshakeDec .server b' with
      | .ok (_, b) => conn k fun t => { t with rx := b }
      | .throws => do
        conn k fun t => { t with rx := t.rx.skip 32 }
        throws
      | .abort => lift .abort
      | .ub => undefined : SM Srv Unit) s')
    rw [e1, e2]
    exact this

/-- The bytes handed up: all that was received behind the header, and 12 others. -/
theorem handUp_same {b b' : Buf} (h : Alike b b') (ht : b.tail = 12) (hh : 12 ≤ b.head) (hm : b.head ≤ 4056) :
    ∃ d d', handUp b = .ok d ∧ handUp b' = .ok d' ∧ blank 12 d' = blank 12 d := by
  have hb : ∀ c : Buf, c.tail = 12 → c.head = b.head → handUp c = .ok (memRead c.packet 12 (b.head - 12) ++ memRead c.packet b.head 12) := by
    intro c h1 h2
    unfold handUp
    rw [if_pos ⟨by show c.tail + c.head ≤ 4096; omega, by show c.head ≤ 4072; omega⟩]
    show Exec.ok (memRead c.packet c.tail c.head) = _
    rw [h1, h2]
    conv =>
      lhs
      rw [show b.head = (b.head - 12) + 12 by omega, memRead_split, show 12 + (b.head - 12) = b.head by omega]
  refine ⟨_, _, hb b ht rfl, hb b' (h.tail.trans ht) h.head, ?_⟩
  rw [blank_append _ (MsgStorage.length_memRead ..), blank_append _ (MsgStorage.length_memRead ..), h.read (by omega)]

theorem tw_note2 {a a' : TAct} (h : blankAct a' = blankAct a) : Blind (note k a) (note k a') :=
  tw_conn fun t t' ht => { ht with log := by simp only [List.map_append, ht.log, List.map_cons, List.map_nil, h] }

theorem tw_forward {t t' : Tcp} (h : Twin t t') (ht : t.rx.tail = 12) (hh : 12 ≤ t.rx.head) (hm : t.rx.head ≤ 4056) (ty : SecType)
    (hdr : UaMessageHeader) : Sim Twins (Is k t t') (forward k ty hdr) (forward k ty hdr) fun r r' s s' => r = r' ∧ Twins s s' := by
  obtain ⟨d, d', e1, e2, hd⟩ := handUp_same h.same ht hh hm
  have give : ∀ f : List UInt8 → Up, fade (f d') = fade (f d) → Sim Twins (Is k t t') (do
      let d ← lift (handUp t.rx)
      note k (.up (f d))
      pure Res.done) (do
      let d ← lift (handUp t'.rx)
      note k (.up (f d))
      pure Res.done) fun r r' s s' => r = r' ∧ Twins s s' := by
    intro f hf s s' hs
    rw [bind_ok (lift_ok e1 s), bind_ok (lift_ok e2 s')]
    exact tw_then (tw_note2 (a := .up (f d)) (a' := .up (f d')) (congrArg TAct.up hf)) (fun _ => tw_ret) s s' hs.1
  have err : Sim Twins (Is k t t') (pure Res.error) (pure Res.error) fun r r' s s' => r = r' ∧ Twins s s' := fun s s' hs => ⟨rfl, hs.1⟩
  unfold forward
  refine tw_self is_twins fun t1 t1' h1 => ?_
  rintro s s' ⟨hs, hs1⟩
  obtain rfl : t = t1 := hs.2.1.symm.trans hs1.2.1
  obtain rfl : t' = t1' := hs.2.2.symm.trans hs1.2.2
  rw [h.assoc]
  cases ty with
  | msg =>
    by_cases ha : t.assoc = some hdr.secureChannelId
    · simp only [if_pos ha]
      exact give (.message hdr.secureChannelId hdr.isFinal) (congrArg (Up.message _ _) hd) s s' hs
    · simp only [if_neg ha]
      exact err s s' hs
  | opn => exact give (.open hdr.secureChannelId hdr.isFinal) (congrArg (Up.open _ _) hd) s s' hs
  | clo =>
    by_cases ha : t.assoc = some hdr.secureChannelId
    · simp only [if_pos ha]
      exact give (.close hdr.secureChannelId hdr.isFinal) (congrArg (Up.close _ _) hd) s s' hs
    · simp only [if_neg ha]
      exact err s s' hs
  | invalid => exact err s s' hs

theorem tw_secured {t t' : Tcp} (h : Twin t t') (ht : t.rx.tail = 0) (hst : t.st = .connected) {e : TEnv} (hp : Polite t e.rx) (hw : Whole t e.rx) :
    Sim Twins (Is k t t') (receiveSecuredMessage k e) (receiveSecuredMessage k e) fun r r' s s' => r = r' ∧ Twins s s' := by
  unfold receiveSecuredMessage
  refine Sim.bind (tw_receiveRx h ht) fun r r' => ?_
  rintro s s' ⟨rfl, b, b', hb, hbt, hd, hs⟩
  cases r with
  | noerror => exact ⟨rfl, hs.1⟩
  | error => exact ⟨rfl, hs.1⟩
  | done =>
    have hd := hd rfl
    have h12 := (hw b hd).2 hst
    refine tw_self is_twins (fun t1 t1' h1 => ?_) s s' hs
    rintro s s' ⟨hs, hs1⟩
    obtain rfl : _ = t1 := hs.2.1.symm.trans hs1.2.1
    obtain rfl : _ = t1' := hs.2.2.symm.trans hs1.2.2
    obtain ⟨v, hv⟩ := Takes.secHeader (Ua.init : UaMessageHeader) b (by omega)
    have hv' := (LocalDec.loc (Ua.init : UaMessageHeader) b v _ hv).2 b' hb.tail fun i h1 h2 => hb.at (by
      have : i < b.tail + 12 := h2
      omega)
    have hty : secType b' = secType b := by
      unfold secType byteIs
      rw [hb.tail, hb.at (by omega), hb.at (by omega), hb.at (by omega)]
    show Pair _ _ ((lift (dec (Ua.init : UaMessageHeader) b) >>= _) s) ((lift (dec (Ua.init : UaMessageHeader) b') >>= _) s')
    rw [bind_ok (lift_ok hv s), bind_ok (lift_ok hv' s')]
    have hsame : Alike { b with tail := b.tail + 12 } { b' with tail := b.tail + 12 } := ⟨hb.head, rfl, hb.packet⟩
    refine Sim.bind (tw_is (h.rx hsame)) (fun _ _ => ?_) s s' hs
    show Sim _ _ (forward k (secType b) v) (forward k (secType b') v) _
    rw [hty]
    exact tw_forward (h.rx hsame) (by show b.tail + 12 = 12; omega) h12 ((hp b hd).2 hst) _ _

theorem tw_onData {e : TEnv} {s0 s0' : Srv} (h : Twins s0 s0') (ht : (s0.conns k).st ≠ .init → (s0.conns k).rx.tail = 0)
    (hp : Polite (s0.conns k) e.rx) (hw : Whole (s0.conns k) e.rx) :
    Sim Twins (Is k (s0.conns k) (s0'.conns k)) (onData k e) (onData k e) fun _ _ => Twins := by
  unfold onData
  refine tw_self is_twins fun t1 t1' h1 => ?_
  rintro s s' ⟨hs, hs1⟩
  obtain rfl : _ = t1 := hs.2.1.symm.trans hs1.2.1
  obtain rfl : _ = t1' := hs.2.2.symm.trans hs1.2.2
  have hk := h.conns k
  rw [hk.st]
  cases hst : (s0.conns k).st with
  | init => exact hs.1
  | hello =>
    refine Sim.andThen (tw_hello hk (ht (by rw [hst]; simp)) hst hp hw) (fun r => ?_) s s' hs
    cases r with
    | noerror => exact tw_ret.drop
    | done => exact tw_toConnected.drop
    | error => exact tw_toInit.drop
  | connected =>
    refine Sim.andThen (tw_secured hk (ht (by rw [hst]; simp)) hst hp hw) (fun r => ?_) s s' hs
    cases r with
    | noerror => exact tw_ret.drop
    | done => exact (tw_then tw_startTimer fun _ => tw_preaction).drop
    | error => exact tw_fail.drop

end rules

/-- C90 for one event of the transport component. -/
theorem next_twins {s s' : Srv} (h : Twins s s') (hs : s.Firm) {e : TEnv} {v : TEv} (hh : Harmless s e v)
    (hw : ∀ k, v = .linkData k → Whole (s.conns k) e.rx) {t : Srv} (hn : next s e v = .ok t) :
    ∃ t', next s' e v = .ok t' ∧ Twins t t' := by
  cases v with
  | accept => exact (tw_onAccept (e := e)).drop.settled h hn
  | linkData k =>
    exact (tw_onData h (hs k).1.tail hh.2 (hw k rfl)).settled ⟨h, rfl, rfl⟩ hn
  | linkError k => 
    exact (tw_conn (k := k) (f := fun t => { t with opened := false }) (f' := fun t => { t with opened := false })
      fun t t' h => { h with opened := rfl }).drop.settled h hn
  | timer k => exact (tw_onTimer (k := k)).drop.settled h hn
  | down k m =>
    unfold next event at hn ⊢
    by_cases hv : Pool.valid k
    · simp only [if_pos hv] at hn ⊢
      exact (tw_onReceive (k := k) (e := e) (m := m)).drop.settled h hn
    · simp only [if_neg hv] at hn
      cases hn

end Transport

/-! ## Decoding -/

/-- Where `w` stands the operation throws. -/
def Stops {α : Type} (c : Codec α) (w : List UInt8) : Prop :=
  ∀ b : Buf, b.tail + w.length ≤ maxPacketLen → memRead b.packet b.tail w.length = w → c b = .throws

/-- The operation ends, by returning or by throwing, in front of the last `n` bytes of `d`. -/
def Inside {α : Type} (c : Codec α) (n : Nat) (d : List UInt8) : Prop :=
  ∃ w y, d = w ++ y ∧ n ≤ y.length ∧ ((∃ v, Reads c w v) ∨ Stops c w)

theorem Inside.both {α : Type} {c : Codec α} {n i : Nat} {d d' : List UInt8} (h : Inside c n (d.drop i)) (hi : i ≤ d.length)
    (hl : d.length ≤ 4096) (hb : blank n d' = blank n d) (m m' : Mem) :
    (∃ v b b', c (((Buf.create m).append d).skip i) = .ok (v, b) ∧ c (((Buf.create m').append d').skip i) = .ok (v, b')) ∨
      (c (((Buf.create m).append d).skip i) = .throws ∧ c (((Buf.create m').append d').skip i) = .throws) := by
  obtain ⟨w, y, hd, hy, hc⟩ := h
  have hsplit : d = d.take i ++ (w ++ y) := by rw [← hd, List.take_append_drop]
  have hlen : d.length = i + (w.length + y.length) := by
    have := congrArg List.length hsplit
    simp only [List.length_append, List.length_take] at this
    omega
  obtain ⟨hl', ht⟩ := blank_eq hb.symm
  have hw : d'.take (i + w.length) = d.take i ++ w := by
    have h1 : d.take (i + w.length) = d.take i ++ w := by
      have h2 : d = (d.take i ++ w) ++ y := by rw [List.append_assoc]; exact hsplit
      conv =>
        lhs
        rw [h2]
      exact List.take_left' (by rw [List.length_append, List.length_take]; omega)
    rw [← h1]
    have := congrArg (List.take (i + w.length)) ht
    rw [List.take_take, List.take_take, Nat.min_eq_left (by omega)] at this
    exact this
  have hsplit' : d' = d.take i ++ (w ++ d'.drop (i + w.length)) := by
    rw [← List.append_assoc, ← hw, List.take_append_drop]
  have hti : (d.take i).length = i := by rw [List.length_take]; omega
  have r1 := part_read (Channel.load_packet m d) hsplit
  have r2 := part_read (Channel.load_packet m' d') hsplit'
  rw [hti] at r1 r2
  have t1 : (((Buf.create m).append d).skip i).tail = i := by show 0 + i = i; omega
  have t2 : (((Buf.create m').append d').skip i).tail = i := by show 0 + i = i; omega
  rcases hc with ⟨v, hr⟩ | hs
  · exact .inl ⟨v, _, _, hr _ (by rw [t1]; show i + w.length ≤ 4096; omega) (by rw [t1]; exact r1),
      hr _ (by rw [t2]; show i + w.length ≤ 4096; omega) (by rw [t2]; exact r2)⟩
  · exact .inr ⟨hs _ (by rw [t1]; show i + w.length ≤ 4096; omega) (by rw [t1]; exact r1),
      hs _ (by rw [t2]; show i + w.length ≤ 4096; omega) (by rw [t2]; exact r2)⟩

namespace Channel

open Ent

/-- The message without the bytes that were not received. -/
def fade : CIn → CIn
  | .open c d => .open c (blank 12 d)
  | .close c ch d => .close c ch (blank 12 d)
  | .message c ch d => .message c ch (blank 12 d)
  | m => m

/-- 12 bytes more go up (C46). -/
def blankAct : CAct → CAct
  | .got m => .got (fade m)
  | .up h d => .up h (blank 24 d)
  | a => a

/-- Two channels that differ in bytes that were not received, and in members that were not written. -/
structure Twin (t t' : Chan) : Prop where
  st : t'.st = t.st
  tx : t'.tx = t.tx
  known : t.st = .established → t'.rxSeq = t.rxSeq ∧ t'.token = t.token
  conn : t'.conn = t.conn
  session : t'.session = t.session
  log : t'.log.map blankAct = t.log.map blankAct

structure Twins (s s' : Chans) : Prop where
  ids : s'.ids = s.ids
  objs : ∀ k, Twin (s.objs k) (s'.objs k)

def Is (k : Nat) (t t' : Chan) (s s' : Chans) : Prop := Twins s s' ∧ s.objs k = t ∧ s'.objs k = t'

section rules

variable {k : Nat} {α : Type}

abbrev Blind (m m' : SM Chans α) : Prop := Sim Twins Twins m m' fun _ _ => Twins

theorem Twins.set {s s' : Chans} (h : Twins s s') {t t' : Chan} (ht : Twin t t') : Twins (s.set k t) (s'.set k t') := by
  refine ⟨h.ids, fun j => ?_⟩
  by_cases hj : j = k
  · subst hj
    rw [set_at, set_at]
    exact ht
  · rw [set_other _ _ hj, set_other _ _ hj]
    exact h.objs j

theorem Twin.note {t t' : Chan} (h : Twin t t') {a a' : CAct} (ha : blankAct a' = blankAct a) :
    Twin { t with log := t.log ++ [a] } { t' with log := t'.log ++ [a'] } :=
  { h with log := by simp only [List.map_append, h.log, List.map_cons, List.map_nil, ha] }

theorem tw_obj {f f' : Chan → Chan} (h : ∀ t t', Twin t t' → Twin (f t) (f' t')) : Blind (obj k f) (obj k f') :=
  fun _ _ hs => hs.set (h _ _ (hs.objs k))

theorem tw_note {a a' : CAct} (h : blankAct a' = blankAct a) : Blind (note k a) (note k a') := tw_obj fun _ _ ht => ht.note h

theorem tw_then {β : Type} {m m' : SM Chans α} {f f' : α → SM Chans β} (h1 : Blind m m') (h2 : ∀ a a', Blind (f a) (f' a')) :
    Blind (m >>= f) (m' >>= f') := Sim.bind h1 h2

theorem tw_releaseId : Blind (releaseId k) (releaseId k : SM Chans Unit) := by
  intro s s' hs
  unfold releaseId
  rw [hs.ids]
  split
  · exact ⟨rfl, hs.objs⟩
  · exact hs
  · trivial
  · trivial

theorem tw_toInit : Blind (toInit k) (toInit k) :=
  tw_then (tw_obj fun t t' h => { h with st := rfl, known := fun e => by cases e }) fun _ _ =>
    tw_then (tw_obj fun t t' h => { h with tx := rfl, conn := rfl, session := rfl }) fun _ _ => tw_then (tw_note rfl) fun _ _ => tw_releaseId

/-- What of the message is read was received. -/
def Whole : CIn → Prop
  | .open _ d => Inside openReqDec 12 d
  | .close _ _ d => Inside (dec (Ua.init : Cont UaCloseSecureChannelReq 452)) 12 (d.drop 12)
  | .message _ _ d => 24 ≤ d.length
  | _ => True

theorem tw_open {t t' : Chan} (h : Twin t t') {e e' : CEnv} (he : e' = { e with mem := e'.mem }) {c : UInt32} {d d' : List UInt8}
    (hd : blank 12 d' = blank 12 d) (hl : d.length ≤ 4056) (hw : Inside openReqDec 12 d) :
    Sim Twins (Is k t t') (receiveOpen k e c d >>= fun _ => obj k fun t => { t with st := .established })
      (receiveOpen k e' c d' >>= fun _ => obj k fun t => { t with st := .established }) fun _ _ => Twins := by
  have hl' : d'.length = d.length := (blank_eq hd.symm).1
  have hboth := Inside.both (i := 0) hw (Nat.zero_le _) (by omega) hd e.mem e'.mem
  have hz : ∀ b : Buf, b.skip 0 = b := fun _ => rfl
  simp only [hz] at hboth
  intro s s' hs
  rw [receiveOpen_eq, receiveOpen_eq, SM.assoc, SM.assoc, bind_ok (lift_ok (load_ok _ _ (by omega)) s),
    bind_ok (lift_ok (load_ok _ _ (by omega)) s'), SM.assoc, SM.assoc]
  rcases hboth with ⟨v, b, b', h1, h2⟩ | ⟨h1, h2⟩
  · rw [bind_ok (lift_ok h1 s), bind_ok (lift_ok h2 s'), bind_ok (answerOpen_run _ _ _ _ _ _ _ _), bind_ok (answerOpen_run _ _ _ _ _ _ _ _),
      obj_run, obj_run, set_at, set_at, set_set, set_set]
    refine hs.1.set ?_
    rw [hs.2.1, hs.2.2, h.tx, he]
    exact ⟨rfl, rfl, fun _ => ⟨rfl, rfl⟩, rfl, h.session, by simp only [List.map_append, h.log]; rfl⟩
  · rw [show lift (openReqDec ((Buf.create e.mem).append d)) = (lift .throws : SM Chans _) from congrArg lift h1,
      show lift (openReqDec ((Buf.create e'.mem).append d')) = (lift .throws : SM Chans _) from congrArg lift h2]
    exact hs.1

theorem word_same {d d' : List UInt8} (hd : blank 12 d' = blank 12 d) (h24 : 24 ≤ d.length) (m m' : Mem) {i : Nat} (hi : i + 4 ≤ 12) :
    mword m' d' i = mword m d i := by
  obtain ⟨hl, ht⟩ := blank_eq hd.symm
  rw [mword_eq (by omega), mword_eq (by omega)]
  unfold word
  have : (d'.drop i).take 4 = (d.drop i).take 4 := by
    have := congrArg (fun l => (l.drop i).take 4) ht
    simp only [List.drop_take, List.take_take] at this
    rw [Nat.min_eq_left (by omega)] at this
    exact this
  rw [this]

/-- Token and sequence number are looked at in both runs alike. -/
theorem tw_guarded {t t' : Chan} (h : Twin t t') (hst : t.st = .established) {e e' : CEnv} {d d' : List UInt8}
    (hd : blank 12 d' = blank 12 d) (hl : d.length ≤ 4056) (h24 : 24 ≤ d.length) :
    Sim Twins (Is k t t') (guarded k e d) (guarded k e' d') fun g g' s s' => Twins s s' ∧
      (s.objs k).st = .established ∧
      ((g = none ∧ g' = none) ∨ ∃ r, g = some (r, ((Buf.create e.mem).append d).skip 12) ∧
        g' = some (r, ((Buf.create e'.mem).append d').skip 12)) := by
  intro s s' hs
  have hl' : d'.length = d.length := (blank_eq hd.symm).1
  rw [guarded_run _ _ _ _ (by omega), guarded_run _ _ _ _ (by omega)]
  rw [word_same hd h24 e.mem e'.mem (by omega), word_same hd h24 e.mem e'.mem (by omega), word_same hd h24 e.mem e'.mem (by omega)]
  obtain ⟨hk1, hk2⟩ := h.known hst
  rw [hs.2.1, hs.2.2, hk1, hk2]
  split
  · refine ⟨hs.1.set { h with known := fun _ => ⟨rfl, hk2⟩ }, ?_, .inr ⟨_, rfl, rfl⟩⟩
    rw [set_at]
    exact hst
  · exact ⟨hs.1, by rw [hs.2.1]; exact hst, .inl ⟨rfl, rfl⟩⟩

theorem tw_close {t t' : Chan} (h : Twin t t') (hst : t.st = .established) {e e' : CEnv} (he : e' = { e with mem := e'.mem }) {c : UInt32}
    {d d' : List UInt8} (hd : blank 12 d' = blank 12 d) (hl : d.length ≤ 4056)
    (hw : Inside (dec (Ua.init : Cont UaCloseSecureChannelReq 452)) 12 (d.drop 12)) :
    Sim Twins (Is k t t') (receiveClose k e c d) (receiveClose k e' c d') fun _ _ => Twins := by
  have h24 : 24 ≤ d.length := by
    obtain ⟨w, y, h1, h2, -⟩ := hw
    have := congrArg List.length h1
    rw [List.length_drop, List.length_append] at this
    omega
  have hboth := Inside.both hw (by omega) (by omega) hd e.mem e'.mem
  rw [receiveClose_eq, receiveClose_eq]
  intro s s' hs
  rw [bind_ok (self_run _ _), bind_ok (self_run _ _), hs.2.1, hs.2.2, h.conn]
  by_cases hc : t.conn = some c
  · rw [if_pos hc, if_pos hc]
    refine Sim.bind (tw_guarded h hst hd hl h24) (fun g g' => ?_) s s' hs
    rintro s s' ⟨hs, hst, ⟨rfl, rfl⟩ | ⟨r, rfl, rfl⟩⟩
    · exact hs
    · show Pair _ _ ((lift (dec (Ua.init : Cont UaCloseSecureChannelReq 452) _) >>= _) s)
        ((lift (dec (Ua.init : Cont UaCloseSecureChannelReq 452) _) >>= _) s')
      rcases hboth with ⟨v, b, b', h1, h2⟩ | ⟨h1, h2⟩
      · rw [bind_ok (lift_ok h1 s), bind_ok (lift_ok h2 s'), answerClose_run, answerClose_run]
        have ho := hs.objs k
        refine hs.set ?_
        rw [ho.tx, (ho.known hst).2, he]
        exact { ho with tx := rfl, known := ho.known, log := by simp only [List.map_append, ho.log]; rfl }
      · rw [h1, h2]
        exact hs
  · rw [if_neg hc, if_neg hc]
    exact hs.1

/-- The bytes handed up: what was received behind the headers, the 12 bytes of the transport component, and 12 others. -/
theorem handUp_same {d d' : List UInt8} (hd : blank 12 d' = blank 12 d) (h24 : 24 ≤ d.length) (hl : d.length ≤ 4056) (m m' : Mem) :
    ∃ x x', handUp (((Buf.create m).append d).skip 12) = .ok x ∧ handUp (((Buf.create m').append d').skip 12) = .ok x' ∧
      blank 24 x' = blank 24 x := by
  obtain ⟨hl', ht⟩ := blank_eq hd.symm
  have key : ∀ (m : Mem) (d : List UInt8), 24 ≤ d.length → d.length ≤ 4056 → ∃ x z, handUp (((Buf.create m).append d).skip 12) = .ok x ∧
      x = d.drop 12 ++ z ∧ z.length = 12 := by
    intro m d h1 h2
    obtain ⟨x, hx⟩ := handUp_inside (m := m) h2
    refine ⟨x, memRead ((Buf.create m).append d).packet d.length 12, hx, ?_, MsgStorage.length_memRead ..⟩
    rw [(handUp_ok hx).2]
    have hp := load_packet m d
    conv =>
      lhs
      rw [show d.length = (d.length - 12) + 12 by omega, memRead_split, show 12 + (d.length - 12) = d.length by omega]
    congr 1
    have hr := part_read (pre := d.take 12) (w := d.drop 12) (post := []) hp (by rw [List.append_nil, List.take_append_drop])
    rw [List.length_take, List.length_drop, Nat.min_eq_left (by omega)] at hr
    exact hr
  obtain ⟨x, z, h1, h2, h3⟩ := key m d h24 hl
  obtain ⟨x', z', h1', h2', h3'⟩ := key m' d' (by omega) (by omega)
  refine ⟨x, x', h1, h1', ?_⟩
  have hs : ∀ e : List UInt8, e.length = d.length → e.take (d.length - 12) = d.take (d.length - 12) →
      e.drop 12 = (d.take (d.length - 12)).drop 12 ++ e.drop (d.length - 12) := by
    intro e he ht
    have : e = d.take (d.length - 12) ++ e.drop (d.length - 12) := by rw [← ht, List.take_append_drop]
    conv =>
      lhs
      rw [this]
    rw [List.drop_append_of_le_length (by rw [List.length_take]; omega)]
  rw [h2, h2', hs d rfl rfl, hs d' hl' ht, List.append_assoc, List.append_assoc]
  exact blank_back (j := 24) (by rw [List.length_append, List.length_drop, h3']; omega) (by rw [List.length_append, List.length_drop, h3]; omega)
    (Nat.le_refl _)

theorem tw_message {t t' : Chan} (h : Twin t t') (hst : t.st = .established) {e e' : CEnv} {c : UInt32}
    {d d' : List UInt8} (hd : blank 12 d' = blank 12 d) (hl : d.length ≤ 4056) (h24 : 24 ≤ d.length) :
    Sim Twins (Is k t t') (receiveMessage k e c d) (receiveMessage k e' c d') fun a a' s s' => a = a' ∧ Twins s s' := by
  obtain ⟨x, x', h1, h2, hx⟩ := handUp_same hd h24 hl e.mem e'.mem
  unfold receiveMessage
  intro s s' hs
  rw [bind_ok (self_run _ _), bind_ok (self_run _ _), hs.2.1, hs.2.2, h.conn, h.session]
  by_cases hc : t.conn = some c
  · rw [if_pos hc, if_pos hc]
    refine Sim.bind (tw_guarded h hst hd hl h24) (fun g g' => ?_) s s' hs
    rintro s s' ⟨hs, hst, ⟨rfl, rfl⟩ | ⟨r, rfl, rfl⟩⟩
    · exact ⟨rfl, hs⟩
    · show Pair _ _ ((lift (handUp _) >>= _) s) ((lift (handUp _) >>= _) s')
      rw [bind_ok (lift_ok h1 s), bind_ok (lift_ok h2 s')]
      exact Sim.bind (tw_note (a := .up _ x) (a' := .up _ x') (congrArg (CAct.up _) hx)) (fun _ _ => Sim.ret fun _ _ h => ⟨rfl, h⟩) s s' hs
  · rw [if_neg hc, if_neg hc]
    exact ⟨rfl, hs.1⟩

theorem tw_send {t t' : Chan} (h : Twin t t') (hst : t.st = .established) {hdr : MsgHdr} {d : List UInt8} :
    Sim Twins (Is k t t') (receiveSend k hdr d) (receiveSend k hdr d) fun _ _ => Twins := by
  unfold receiveSend
  intro s s' hs
  rw [bind_ok (self_run _ _), bind_ok (self_run _ _), hs.2.1, hs.2.2, h.conn, h.session, h.tx, (h.known hst).2]
  split
  · split
    · refine tw_then (tw_obj (f := fun t => { t with tx := t.tx + 1 }) (f' := fun t => { t with tx := t.tx + 1 }) fun t t' h =>
        { h with tx := congrArg (· + 1) h.tx }) (fun _ _ => ?_) s s' hs.1
      exact Sim.andThen (Sim.lift fun _ _ h => h) fun _ => tw_note rfl
    · exact hs.1
  · exact hs.1

theorem tw_associate {t t' : Chan} (h : Twin t t') {hdr : MsgHdr} :
    Sim Twins (Is k t t') (receiveAssociate k hdr) (receiveAssociate k hdr) fun _ _ => Twins := by
  unfold receiveAssociate
  intro s s' hs
  rw [bind_ok (self_run _ _), bind_ok (self_run _ _), hs.2.1, hs.2.2, h.conn]
  split
  · exact tw_then (tw_obj (f := fun t => { t with session := some hdr.sessionId }) (f' := fun t => { t with session := some hdr.sessionId })
      fun t t' h => { h with session := rfl }) (fun _ _ => tw_note rfl) s s' hs.1
  · exact hs.1

theorem tw_onReceive {e e' : CEnv} (he : e' = { e with mem := e'.mem }) {m m' : CIn} (hm : fade m' = fade m) (hn : Named m) (hw : Whole m) :
    Blind (onReceive k e m) (onReceive k e' m') := by
  unfold onReceive
  refine tw_then (tw_note (congrArg CAct.got hm)) fun _ _ => ?_
  intro s s' hs
  have h := hs.objs k
  have his : Is k (s.objs k) (s'.objs k) s s' := ⟨hs, rfl, rfl⟩
  rw [bind_ok (self_run _ _), bind_ok (self_run _ _), h.st]
  cases m with
  | «open» c d =>
    cases m' <;> simp only [fade] at hm <;> try cases hm
    rename_i c' d'
    injection hm with h1 h2
    subst h1
    cases hst : (s.objs k).st with
    | init => exact tw_open h he h2 hn.2 hw s s' his
    | established => exact hs
  | close c ch d =>
    cases m' <;> simp only [fade] at hm <;> try cases hm
    rename_i c' ch' d'
    injection hm with h1 h1' h2
    subst h1 h1'
    cases hst : (s.objs k).st with
    | init => exact hs
    | established =>
      exact Sim.bind (tw_close h hst he h2 hn.2.2 hw) (fun _ _ => tw_then (tw_note rfl) fun _ _ => tw_toInit) s s' his
  | message c ch d =>
    cases m' <;> simp only [fade] at hm <;> try cases hm
    rename_i c' ch' d'
    injection hm with h1 h1' h2
    subst h1 h1'
    cases hst : (s.objs k).st with
    | init => exact hs
    | established =>
      refine Sim.andThen (tw_message h hst h2 hn.2.2 hw) (fun ok => ?_) s s' his
      cases ok with
      | true => exact fun _ _ h => h
      | false => exact tw_then (tw_note rfl) fun _ _ => tw_toInit
  | released c ch =>
    cases m' <;> simp only [fade] at hm <;> try cases hm
    cases hst : (s.objs k).st with
    | init => exact hs
    | established => exact tw_toInit s s' hs
  | associate hdr =>
    cases m' <;> simp only [fade] at hm <;> try cases hm
    cases hst : (s.objs k).st with
    | init => exact hs
    | established => exact tw_associate h s s' his
  | send hdr d =>
    cases m' <;> simp only [fade] at hm <;> try cases hm
    cases hst : (s.objs k).st with
    | init => exact hs
    | established => exact tw_send h hst s s' his

end rules

theorem tw_get {k : Nat} {m m' : SM Chans Unit} (h : Blind m m') : Blind (Ent.get k m) (Ent.get k m') := by
  unfold Ent.get
  split
  · exact h
  · exact fun _ _ _ => trivial

/-- C90 for one message to the channel component. -/
theorem next_twins {s s' : Chans} (h : Twins s s') {e e' : CEnv} (he : e' = { e with mem := e'.mem }) {m m' : CIn} (hm : fade m' = fade m)
    (hn : Named m) (hw : Whole m) {t : Chans} (ht : next s e m = .ok t) : ∃ t', next s' e' m' = .ok t' ∧ Twins t t' := by
  have key : Blind (event e m) (event e' m') := by
    cases m with
    | «open» c d =>
      cases m' <;> simp only [fade] at hm <;> try cases hm
      rename_i c' d'
      refine Sim.bind (R := fun r r' s s' => r = r' ∧ Twins s s') ?_ fun r r' => ?_
      · intro s s' hs
        unfold allocId
        rw [hs.ids]
        split
        · exact ⟨rfl, rfl, hs.objs⟩
        · exact hs
        · trivial
        · trivial
      · rintro s s' ⟨rfl, hs⟩
        cases r with
        | none => exact hs
        | some k => exact tw_onReceive he (by simp only [fade, hm]) hn hw s s' hs
    | close c ch d =>
      cases m' <;> simp only [fade] at hm <;> try cases hm
      rename_i c' ch' d'
      injection hm with h1 h1' h2
      subst h1 h1'
      exact tw_get (tw_onReceive he (by simp only [fade, h2]) hn hw)
    | message c ch d =>
      cases m' <;> simp only [fade] at hm <;> try cases hm
      rename_i c' ch' d'
      injection hm with h1 h1' h2
      subst h1 h1'
      exact tw_get (tw_onReceive he (by simp only [fade, h2]) hn hw)
    | released c ch =>
      cases m' <;> simp only [fade] at hm <;> try cases hm
      exact tw_get (tw_onReceive he rfl hn hw)
    | associate hdr =>
      cases m' <;> simp only [fade] at hm <;> try cases hm
      exact tw_get (tw_onReceive he rfl hn hw)
    | send hdr d =>
      cases m' <;> simp only [fade] at hm <;> try cases hm
      exact tw_get (tw_onReceive he rfl hn hw)
  exact key.settled h ht

end Channel

namespace Session

/-! ## Sessions -/

theorem throws_bind {σ α β : Type} (f : α → SM σ β) (c : σ) : (lift (.throws : Exec α) >>= f) c = (.throws, c) := rfl

theorem handle_mem (e : SEnv) (m : Mem) (h : MsgHdr) (q : SReq) : handle { e with mem := m } h q = handle e h q := by
  cases q <;> rfl

/-- C90 for one message to the service component: the sessions are the same in both runs. -/
theorem next_same {s s' : Sessions} {e e' : SEnv} (he : e' = { e with mem := e'.mem }) {h : MsgHdr} {d d' : List UInt8}
    (hd : blank 24 d' = blank 24 d) (hl : d.length ≤ 4056) (hw : Inside dispatch 24 d) (hn : next s ⟨e, h, d⟩ = .ok s') :
    next s ⟨e', h, d'⟩ = .ok s' := by
  have hl' := (blank_eq hd.symm).1
  have hw : Inside dispatch 24 (d.drop 0) := by rw [List.drop_zero]; exact hw
  have hboth := Inside.both hw (Nat.zero_le _) (by omega) hd e.mem e'.mem
  have key : ∀ (e : SEnv) (d : List UInt8), d.length ≤ 4056 → event e h d s =
      (do
        let r ← lift (dispatch (((Buf.create e.mem).append d).skip 0))
        match r.1 with
        | none => pure ()
        | some q => handle e h q) s := by
    intro e d hd
    unfold event
    rw [bind_ok (lift_ok (Channel.load_ok _ _ (by omega)) s)]
    rfl
  have k1 := key e d hl
  have k2 := key e' d' (by omega)
  have : event e' h d' s = event e h d s := by
    rw [k1, k2]
    rcases hboth with ⟨v, b, b', h1, h2⟩ | ⟨h1, h2⟩
    · rw [bind_ok (lift_ok h1 s), bind_ok (lift_ok h2 s)]
      cases v with
      | none => rfl
      | some q =>
        show handle e' h q s = handle e h q s
        rw [he, handle_mem]
    · rw [h1, h2]
      exact (Session.throws_bind _ s).trans (Session.throws_bind _ s).symm
  unfold next at hn ⊢
  exact (congrArg settle this).trans hn

end Session

namespace Stack

open Transport (TEv Down)

/-! ## The components together -/

/-- A message of the mailbox without the bytes that were not received. -/
def blankMail : Mail → Mail
  | .chan m => .chan (Channel.fade m)
  | .tcp k m => .tcp k m
  | .sess h d => .sess h (blank 24 d)

/-- Two servers that differ in memory that was not written. -/
structure Twins (s s' : Stack) : Prop where
  srv : Transport.Twins s.srv s'.srv
  chans : Channel.Twins s.chans s'.chans
  sess : s'.sess = s.sess
  box : s'.box.map blankMail = s.box.map blankMail

theorem size_blank (x : Mail) : (blankMail x).size = x.size := by
  cases x with
  | chan m => cases m <;> simp only [blankMail, Channel.fade, Mail.size, blank_length]
  | tcp k m => rfl
  | sess h d => simp only [blankMail, Mail.size, blank_length]

theorem post_blank (slot others : Nat) (box ms : List Mail) :
    post slot others (box.map blankMail) (ms.map blankMail) = (do let b ← post slot others box ms; pure (b.map blankMail)) := by
  induction ms generalizing box with
  | nil => rfl
  | cons x ms ih =>
    rw [List.map_cons]
    unfold post
    rw [List.length_map, size_blank]
    by_cases h1 : box.length + others < 64
    · rw [if_pos h1, if_pos h1]
      by_cases h2 : x.size + 8 ≤ slot
      · rw [if_pos h2, if_pos h2, ← ih, List.map_append]
        rfl
      · rw [if_neg h2, if_neg h2]
        rfl
    · rw [if_neg h1, if_neg h1, ih]

theorem post_twins {slot others : Nat} {box box' ms ms' r : List Mail} (hb : box'.map blankMail = box.map blankMail)
    (hm : ms'.map blankMail = ms.map blankMail) (h : post slot others box ms = .ok r) :
    ∃ r', post slot others box' ms' = .ok r' ∧ r'.map blankMail = r.map blankMail := by
  have h1 := post_blank slot others box ms
  have h2 := post_blank slot others box' ms'
  rw [hb, hm, h1, h] at h2
  cases h3 : post slot others box' ms' with
  | ok r' =>
    rw [h3] at h2
    injection h2 with h2
    exact ⟨r', rfl, h2.symm⟩
  | _ => rw [h3] at h2; cases h2

theorem sent_map {α : Type} {b : α → α} {f : α → Option Mail} (hf : ∀ a, f (b a) = (f a).map blankMail) {l l' : List α}
    (h : l'.map b = l.map b) : (l'.filterMap f).map blankMail = (l.filterMap f).map blankMail := by
  have key : ∀ l : List α, (l.filterMap f).map blankMail = (l.map b).filterMap f := by
    intro l
    rw [List.filterMap_map, List.map_filterMap]
    congr 1
    funext a
    exact (hf a).symm
  rw [key, key, h]

theorem drop_map {α : Type} {b : α → α} {o o' l l' : List α} (ho : o'.map b = o.map b) (hl : l'.map b = l.map b) :
    (l'.drop o'.length).map b = (l.drop o.length).map b := by
  have h := congrArg List.length ho
  rw [List.length_map, List.length_map] at h
  rw [List.map_drop, List.map_drop, hl, h]

theorem sentTcp_twins {s s' t t' : Srv} (hs : Transport.Twins s s') (ht : Transport.Twins t t') :
    (sentTcp s' t').map blankMail = (sentTcp s t).map blankMail := by
  unfold sentTcp
  rw [List.map_flatMap, List.map_flatMap]
  congr 1
  funext k
  refine sent_map (b := Transport.blankAct) (fun a => ?_) (drop_map (hs.conns k).log (ht.conns k).log)
  cases a with
  | up m => cases m <;> rfl
  | _ => rfl

theorem sentChan_twins {s s' t t' : Chans} (hs : Channel.Twins s s') (ht : Channel.Twins t t') :
    (sentChan s' t').map blankMail = (sentChan s t).map blankMail := by
  unfold sentChan diff
  refine sent_map (b := Channel.blankAct) (fun a => ?_) ?_
  · cases a <;> rfl
  · rw [List.map_flatMap, List.map_flatMap]
    congr 1
    funext k
    exact drop_map (hs.objs k).log (ht.objs k).log

/-- What the peer of a connection sees: that it is accepted, the bytes that come, and the end. -/
def seen : TAct → Option TAct
  | .accepted => some .accepted
  | .sent d => some (.sent d)
  | .released => some .released
  | _ => none

/-- All that the peers of connection `k` have seen. -/
def shown (s : Stack) (k : Nat) : List TAct := (s.srv.conns k).log.filterMap seen

theorem Twins.shown {s s' : Stack} (h : Twins s s') (k : Nat) : s'.shown k = s.shown k := by
  have key : ∀ l : List TAct, l.filterMap seen = (l.map Transport.blankAct).filterMap seen := by
    intro l
    rw [List.filterMap_map]
    congr 1
    funext a
    cases a <;> rfl
  unfold Stack.shown
  rw [key (s'.srv.conns k).log, key (s.srv.conns k).log, (h.srv.conns k).log]

/-- What is not initialised is forgotten. -/
def forget (e : Env) : Env := { e with chan := { e.chan with mem := fun _ => 0 }, sess := { e.sess with mem := fun _ => 0 } }

/-- What a handler reads of a chunk and of a message was received: the length fields do not send it behind the end of what the peer
sent.  (It may throw before.) -/
def Whole (s : Stack) (e : Env) : Ev → Prop
  | .net (.linkData k) => Transport.Whole (s.srv.conns k) e.tcp.rx
  | .net _ => True
  | .deliver => match s.box with
    | .chan m :: _ => Channel.Whole m
    | .sess _ d :: _ => Inside Session.dispatch 24 d
    | _ => True

/-- The components after a history in which nothing hurt and all that was read was received. -/
inductive Plain (m : Nat → Mem) (u : Nat → UInt32 × UInt32) : List (Env × Ev) → Stack → Prop
  | create {s : Stack} (h : create m u = .ok s) : Plain m u [] s
  | step {evs : List (Env × Ev)} {s s' : Stack} {e : Env} {v : Ev} (h : Plain m u evs s) (hp : Possible s v) (hh : Harmless s e v)
      (hw : Whole s e v) (hn : step s e v = .ok s') : Plain m u (evs ++ [(e, v)]) s'

variable {m m' : Nat → Mem} {u u' : Nat → UInt32 × UInt32} {evs : List (Env × Ev)} {s s' : Stack}

theorem Plain.tame (h : Plain m u evs s) : Tame m u evs s := by
  induction h with
  | create h => exact .create h
  | step _ hp hh _ hn ih => exact .step ih hp hh hn

theorem forget_eq {e e' : Env} (h : forget e' = forget e) : e'.others = e.others ∧ e'.tcp = e.tcp ∧
    e'.chan = { e.chan with mem := e'.chan.mem } ∧ e'.sess = { e.sess with mem := e'.sess.mem } := by
  obtain ⟨o, t, ⟨a, b, c, d⟩, ⟨f, g⟩⟩ := e
  obtain ⟨o', t', ⟨a', b', c', d'⟩, ⟨f', g'⟩⟩ := e'
  simp only [forget, Env.mk.injEq, CEnv.mk.injEq, SEnv.mk.injEq, true_and] at h
  obtain ⟨rfl, rfl, ⟨rfl, rfl, rfl⟩, rfl⟩ := h
  exact ⟨rfl, rfl, rfl, rfl⟩

theorem onTcp_twins (h : Twins s s') (hs : s.srv.Firm) {e e' : Env} (he : forget e' = forget e) {v : TEv}
    (hh : Transport.Harmless s.srv e.tcp v) (hw : ∀ k, v = .linkData k → Transport.Whole (s.srv.conns k) e.tcp.rx) {t : Stack}
    (hn : onTcp 4096 s e v = .ok t) : ∃ t', onTcp 4096 s' e' v = .ok t' ∧ Twins t t' := by
  obtain ⟨srv, h1, hn⟩ := Exec.bind_eq_ok.mp hn
  obtain ⟨box, h2, hn⟩ := Exec.bind_eq_ok.mp hn
  injection hn with hn
  subst hn
  have ho : e'.others = e.others := (forget_eq he).1
  have ht : e'.tcp = e.tcp := (forget_eq he).2.1
  obtain ⟨srv', h3, h4⟩ := Transport.next_twins h.srv hs hh hw h1
  obtain ⟨box', h5, h6⟩ := post_twins h.box (sentTcp_twins h.srv h4) h2
  refine ⟨{ s' with srv := srv', box := box' }, ?_, h4, h.chans, h.sess, h6⟩
  unfold onTcp
  rw [ht, h3, Exec.ok_bind, ho, h5]
  rfl

theorem onChan_twins (h : Twins s s') {e e' : Env} (he : forget e' = forget e) {x x' : CIn} (hx : Channel.fade x' = Channel.fade x)
    (hs : Channel.Named x) (hw : Channel.Whole x) {t : Stack}
    (hn : onChan 4096 s e x = .ok t) : ∃ t', onChan 4096 s' e' x' = .ok t' ∧ Twins t t' := by
  obtain ⟨chans, h1, hn⟩ := Exec.bind_eq_ok.mp hn
  obtain ⟨box, h2, hn⟩ := Exec.bind_eq_ok.mp hn
  injection hn with hn
  subst hn
  have ho : e'.others = e.others := (forget_eq he).1
  have hc := (forget_eq he).2.2.1
  obtain ⟨chans', h3, h4⟩ := Channel.next_twins h.chans hc hx hs hw h1
  obtain ⟨box', h5, h6⟩ := post_twins h.box (sentChan_twins h.chans h4) h2
  refine ⟨{ s' with chans := chans', box := box' }, ?_, h.srv, h4, h.sess, h6⟩
  unfold onChan
  rw [h3, Exec.ok_bind, ho, h5]
  rfl

theorem onSess_twins (h : Twins s s') {e e' : Env} (he : forget e' = forget e) {hdr : MsgHdr} {d d' : List UInt8}
    (hd : blank 24 d' = blank 24 d) (hl : d.length ≤ 4056) (hw : Inside Session.dispatch 24 d) {t : Stack}
    (hn : onSess 4096 s e hdr d = .ok t) : ∃ t', onSess 4096 s' e' hdr d' = .ok t' ∧ Twins t t' := by
  obtain ⟨sess, h1, hn⟩ := Exec.bind_eq_ok.mp hn
  obtain ⟨box, h2, hn⟩ := Exec.bind_eq_ok.mp hn
  injection hn with hn
  subst hn
  have ho : e'.others = e.others := (forget_eq he).1
  have hc := (forget_eq he).2.2.2
  obtain ⟨box', h5, h6⟩ := post_twins h.box rfl h2
  refine ⟨{ s' with sess, box := box' }, ?_, h.srv, h.chans, rfl, h6⟩
  unfold onSess
  rw [h.sess, Session.next_same hc hd hl hw h1, Exec.ok_bind, ho, h5]
  rfl

theorem step_twins (h : Twins s s') (hs : Solid s) {e e' : Env} (he : forget e' = forget e) {v : Ev} (hp : Possible s v)
    (hh : Harmless s e v) (hw : Whole s e v) {t : Stack} (hn : step s e v = .ok t) :
    Possible s' v ∧ ∃ t', step s' e' v = .ok t' ∧ Twins t t' := by
  cases v with
  | net v =>
    refine ⟨⟨hp.1, ?_⟩, onTcp_twins h hs.srv he ?_ ?_ hn⟩
    · cases v with
      | accept => trivial
      | linkData k => exact ⟨hp.2.1, (h.srv.conns k).link.trans hp.2.2⟩
      | linkError k => exact ⟨hp.2.1, (h.srv.conns k).link.trans hp.2.2⟩
      | timer k => exact ⟨hp.2.1, (h.srv.conns k).armed.trans hp.2.2⟩
      | down k x => trivial
    · cases v with
      | accept => exact hh
      | linkData k => exact hh
      | linkError k => trivial
      | timer k => trivial
      | down k x => exact absurd hp.1 (by simp [isDown])
    · rintro k rfl
      exact hw
  | deliver =>
    have hb := h.box
    cases hbox : s.box with
    | nil => exact absurd hbox hp
    | cons x box =>
      rw [hbox] at hb
      cases hbox' : s'.box with
      | nil => rw [hbox'] at hb; cases hb
      | cons x' box' =>
        refine ⟨(fun h => by rw [hbox'] at h; cases h), ?_⟩
        rw [hbox', List.map_cons, List.map_cons] at hb
        injection hb with hb1 hb2
        have hx : Sane x := hs.box x (by simp [hbox])
        have h' : Twins { s with box } { s' with box := box' } := ⟨h.srv, h.chans, h.sess, hb2⟩
        simp only [Harmless, Whole, hbox] at hh hw
        change deliver 4096 s e = .ok t at hn
        show ∃ t', deliver 4096 s' e' = .ok t' ∧ _
        unfold deliver at hn ⊢
        rw [hbox] at hn
        rw [hbox']
        cases x with
        | chan y =>
          cases x' <;> simp only [blankMail] at hb1 <;> try cases hb1
          injection hb1 with hb1
          exact onChan_twins h' he hb1 hx hw hn
        | tcp k y =>
          cases x' <;> simp only [blankMail] at hb1 <;> try cases hb1
          exact onTcp_twins (v := .down k y) h' hs.srv he hx (fun k h => by cases h) hn
        | sess hdr d =>
          cases x' <;> simp only [blankMail] at hb1 <;> try cases hb1
          injection hb1 with hb1 hb3
          subst hb1
          exact onSess_twins h' he hb3 hx.2.2 hw hn

theorem create_twins (h : create m u = .ok s) (m' : Nat → Mem) (u' : Nat → UInt32 × UInt32) :
    ∃ s', create m' u' = .ok s' ∧ Twins s s' := by
  obtain ⟨srv, h1, h⟩ := Exec.bind_eq_ok.mp h
  obtain ⟨chans, h2, h⟩ := Exec.bind_eq_ok.mp h
  obtain ⟨sess, h3, h⟩ := Exec.bind_eq_ok.mp h
  injection h with h
  subst h
  obtain ⟨ids, g1, h1⟩ := Exec.bind_eq_ok.mp h1
  obtain ⟨ids2, g2, h2⟩ := Exec.bind_eq_ok.mp h2
  injection h1 with h1
  injection h2 with h2
  subst h1 h2
  refine ⟨{ srv := ⟨ids, fun k => Tcp.create (m' k)⟩, chans := ⟨ids2, fun k => Chan.create (u' k).1 (u' k).2⟩,
            sess := sess, box := [] }, ?_, ⟨rfl, fun k => ⟨rfl, rfl, rfl, rfl, rfl, rfl, rfl, rfl, rfl, rfl⟩⟩,
    ⟨rfl, fun k => ⟨rfl, rfl, (fun h => by cases h), rfl, rfl, rfl⟩⟩, rfl, rfl⟩
  rw [g1] at g2
  injection g2 with g2
  subst g2
  obtain ⟨ids3, g3, h3⟩ := Exec.bind_eq_ok.mp h3
  injection h3 with h3
  subst h3
  rw [g1] at g3
  injection g3 with g3
  subst g3
  unfold create Srv.create Ent.create
  rw [g1]
  rfl

theorem Plain.twins (h : Plain m u evs s) (m' : Nat → Mem) (u' : Nat → UInt32 × UInt32) {evs' : List (Env × Ev)}
    (he : evs'.map (fun x => (forget x.1, x.2)) = evs.map (fun x => (forget x.1, x.2))) : ∃ s', Reach m' u' evs' s' ∧ Twins s s' := by
  induction h generalizing evs' with
  | create h =>
    obtain rfl := List.map_eq_nil_iff.mp he
    obtain ⟨s', h1, h2⟩ := create_twins h m' u'
    exact ⟨s', .create h1, h2⟩
  | @step evs s t e v h hp hh hw hn ih =>
    rw [List.map_append] at he
    obtain ⟨a, b, rfl, h1, h2⟩ := List.map_eq_append_iff.mp he
    obtain ⟨x, rfl, hx⟩ : ∃ x : Env × Ev, b = [x] ∧ (forget x.1, x.2) = (forget e, v) := by
      obtain ⟨x, y, rfl, h3, h4⟩ := List.map_eq_cons_iff.mp h2
      obtain rfl := List.map_eq_nil_iff.mp h4
      exact ⟨x, rfl, h3⟩
    obtain ⟨e', v'⟩ := x
    obtain ⟨hx1, hx2⟩ : forget e' = forget e ∧ v' = v := Prod.mk.inj hx
    subst hx2
    obtain ⟨s', h4, h5⟩ := ih h1
    obtain ⟨h6, t', h7, h8⟩ := step_twins h5 h.tame.solid hx1 hp hh hw hn
    exact ⟨t', .step h4 h6 h7, h8⟩

/-- C90, for peers whose messages contain all that is read of them: whatever the memory of the process held where nothing was written,
the peers see the same.  Missing: the code does not refuse messages that lack their last members
(`C90_open_violated`). -/
theorem C90_silent_partial (h : Plain m u evs s) (m' : Nat → Mem) (u' : Nat → UInt32 × UInt32) (evs' : List (Env × Ev))
    (he : evs'.map (fun x => (forget x.1, x.2)) = evs.map (fun x => (forget x.1, x.2))) :
    ∃ s', Reach m' u' evs' s' ∧ ∀ k, s'.shown k = s.shown k := by
  obtain ⟨s', h1, h2⟩ := h.twins m' u' he
  exact ⟨s', h1, h2.shown⟩

end Stack

end Uscada.Ua
