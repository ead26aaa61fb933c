import Verif.UaStack
import Verif.UaTransportProps
import Verif.UaChannelProps
import Verif.UaSessionProps
/-!
# What one event adds to the logs of a component

`Emits logs f k l m`: the operation `m` appends to log `k` only, and what it appends is, as far as `f` sees it, a sublist of
`l`.
-/

namespace Uscada.Ua

open SM

variable {σ α β γ ι : Type}

/-- Log `k` grows by `new`, the other logs are left alone. -/
def Adds (logs : σ → Nat → List α) (k : Nat) (new : List α) (s s' : σ) : Prop :=
  logs s' k = logs s k ++ new ∧ ∀ j, j ≠ k → logs s' j = logs s j

theorem Adds.refl {logs : σ → Nat → List α} {k : Nat} {s : σ} : Adds logs k [] s s := ⟨(List.append_nil _).symm, fun _ _ => rfl⟩

theorem Adds.trans {logs : σ → Nat → List α} {k : Nat} {a b : List α} {s s' s'' : σ} (h1 : Adds logs k a s s')
    (h2 : Adds logs k b s' s'') : Adds logs k (a ++ b) s s'' :=
  ⟨by rw [h2.1, h1.1, List.append_assoc], fun j hj => by rw [h2.2 j hj, h1.2 j hj]⟩

def Small (logs : σ → Nat → List α) (f : α → Option ι) (k : Nat) (l : List ι) (s s' : σ) : Prop :=
  ∃ new, Adds logs k new s s' ∧ (new.filterMap f).Sublist l

structure Emits (logs : σ → Nat → List α) (f : α → Option ι) (k : Nat) (l : List ι) (m : SM σ β) : Prop where
  post : ∀ s, SPost (Small logs f k l s) (fun _ => Small logs f k l s) (m s)

namespace Emits

variable {logs : σ → Nat → List α} {f : α → Option ι} {k : Nat} {l l' : List ι}

theorem mono {m : SM σ β} (h : Emits logs f k l m) (hl : l.Sublist l') : Emits logs f k l' m := by
  refine ⟨fun s => ?_⟩
  have hs := h.post s
  have key : ∀ s', Small logs f k l s s' → Small logs f k l' s s' := fun s' ⟨n, h1, h2⟩ => ⟨n, h1, h2.trans hl⟩
  match hm : m s with
  | (.ok a, s') => rw [hm] at hs; exact key s' hs
  | (.throws, s') => rw [hm] at hs; exact key s' hs
  | (.abort, s') => trivial
  | (.ub, s') => trivial

/-- The second operation may use what is known about the result of the first. -/
theorem bind' {m : SM σ β} {g : β → SM σ γ} (h1 : Emits logs f k l m)
    (h2 : ∀ s a s', m s = (.ok a, s') → Emits logs f k l' (g a)) : Emits logs f k (l ++ l') (m >>= g) := by
  refine ⟨fun s => ?_⟩
  have h := h1.post s
  rw [bind_run]
  match hm : m s with
  | (.ok a, s') =>
    rw [hm] at h
    obtain ⟨n1, ha1, hs1⟩ := h
    have h' := (h2 s a s' hm).post s'
    have key : ∀ s'', Small logs f k l' s' s'' → Small logs f k (l ++ l') s s'' := by
      rintro s'' ⟨n2, ha2, hs2⟩
      exact ⟨n1 ++ n2, ha1.trans ha2, by rw [List.filterMap_append]; exact hs1.append hs2⟩
    match hg : g a s' with
    | (.ok b, s'') => rw [hg] at h'; simp only [andThen, hg]; exact key s'' h'
    | (.throws, s'') => rw [hg] at h'; simp only [andThen, hg]; exact key s'' h'
    | (.abort, s'') => simp only [andThen, hg]; trivial
    | (.ub, s'') => simp only [andThen, hg]; trivial
  | (.throws, s') =>
    rw [hm] at h
    obtain ⟨n1, ha1, hs1⟩ := h
    exact ⟨n1, ha1, hs1.trans (List.sublist_append_left _ _)⟩
  | (.abort, s') => trivial
  | (.ub, s') => trivial

theorem bind {m : SM σ β} {g : β → SM σ γ} (h1 : Emits logs f k l m) (h2 : ∀ a, Emits logs f k l' (g a)) :
    Emits logs f k (l ++ l') (m >>= g) := h1.bind' fun _ a _ _ => h2 a

/-- The first operation emits nothing. -/
theorem quiet {m : SM σ β} {g : β → SM σ γ} (h1 : Emits logs f k [] m) (h2 : ∀ a, Emits logs f k l (g a)) :
    Emits logs f k l (m >>= g) := h1.bind h2

theorem quiet' {m : SM σ β} {g : β → SM σ γ} (h1 : Emits logs f k [] m)
    (h2 : ∀ s a s', m s = (.ok a, s') → Emits logs f k l (g a)) : Emits logs f k l (m >>= g) := h1.bind' h2

/-- The second operation emits nothing. -/
theorem after {m : SM σ β} {g : β → SM σ γ} (h1 : Emits logs f k l m) (h2 : ∀ a, Emits logs f k [] (g a)) :
    Emits logs f k l (m >>= g) := by
  have := h1.bind h2
  rwa [List.append_nil] at this

theorem same {m : SM σ β} (h : ∀ s, SPost (fun s' => logs s' = logs s) (fun _ s' => logs s' = logs s) (m s)) :
    Emits logs f k l m := by
  refine ⟨fun s => ?_⟩
  have hs := h s
  have key : ∀ s', logs s' = logs s → Small logs f k l s s' := fun s' e =>
    ⟨[], ⟨by rw [e, List.append_nil], fun j _ => by rw [e]⟩, by simp⟩
  match hm : m s with
  | (.ok a, s') => rw [hm] at hs; exact key s' hs
  | (.throws, s') => rw [hm] at hs; exact key s' hs
  | (.abort, s') => trivial
  | (.ub, s') => trivial

theorem ret {a : β} : Emits logs f k l (pure a : SM σ β) := same fun _ => rfl

theorem undefined : Emits logs f k l (SM.undefined : SM σ β) := same fun _ => trivial

theorem throws : Emits logs f k l (SM.throws : SM σ β) := same fun _ => rfl

theorem lift {e : Exec β} : Emits logs f k l (SM.lift e) := by
  refine same fun s => ?_
  cases e <;> first | trivial | rfl

end Emits

theorem lift_inv {e : Exec β} {s s' : σ} {a : β} (h : SM.lift e s = (.ok a, s')) : e = .ok a := by
  cases e with
  | ok x => injection h with h1 h2
  | throws => cases h
  | abort => cases h
  | ub => cases h

/-! ## Transport -/

namespace Transport

def tlogs (s : Srv) (k : Nat) : List TAct := (s.conns k).log

variable {f : TAct → Option ι} {k : Nat} {l : List ι}

abbrev TEmits (f : TAct → Option ι) (k : Nat) (l : List ι) (m : SM Srv β) : Prop := Emits tlogs f k l m

theorem em_self : TEmits f k l (self k) := Emits.same fun _ => rfl

theorem em_conn {g : Tcp → Tcp} (h : ∀ t, (g t).log = t.log) : TEmits f k l (conn k g) := by
  refine Emits.same fun s => ?_
  show tlogs (s.set k (g (s.conns k))) = tlogs s
  funext j
  simp only [tlogs, Srv.set]
  split
  · subst_vars; exact h _
  · rfl

theorem em_note {a : TAct} : TEmits f k (f a).toList (note k a) := by
  refine ⟨fun s => ?_⟩
  refine ⟨[a], ⟨?_, fun j hj => ?_⟩, ?_⟩
  · simp [tlogs, Srv.set]
  · simp [tlogs, Srv.set, hj]
  · cases h : f a <;> simp [h]

theorem em_releaseId : TEmits f k l (releaseId k) := by
  refine Emits.same fun s => ?_
  unfold releaseId
  split <;> first | trivial | rfl

/-- What is not of interest. -/
theorem em_note_none {a : TAct} (h : f a = none) : TEmits f k l (note k a) := by
  have := em_note (f := f) (k := k) (a := a)
  rw [h] at this
  exact this.mono (List.nil_sublist _)

/-- `f` sees only what is handed up as data or sent. -/
structure Coarse (f : TAct → Option ι) : Prop where
  accepted : f .accepted = none
  assigned : ∀ c, f (.assigned c) = none
  asked : f .asked = none
  released : f .released = none
  told : ∀ c, f (.up (.released c)) = none

variable (hf : Coarse f)
include hf

theorem em_sendReleaseInd : TEmits f k [] (sendReleaseInd k) := by
  refine em_self.quiet fun t => ?_
  split
  · exact .ret
  · exact em_note_none (hf.told _)

omit hf in
theorem em_linkSend {e : TEnv} {bytes : List UInt8} : TEmits f k (f (.sent bytes)).toList (linkSend k e bytes) := by
  refine em_self.quiet fun t => ?_
  split
  · split
    · exact em_note.after fun _ => .ret
    · exact .ret
  · exact .undefined

omit hf in
/-- The frame that is sent. -/
theorem em_sendSecured {e : TEnv} {ty : SecType} {flag : UInt8} {channel : UInt32} {data : List UInt8} :
    TEmits f k (f (.sent (chunk ty flag channel data))).toList
      (sendSecured k e (letters ty).1 (letters ty).2.1 (letters ty).2.2 flag channel data) := by
  refine Emits.lift.quiet' fun s a s' ha => ?_
  have ha := lift_inv ha
  by_cases hd : data.length ≤ 4084
  · rw [C45_secured garbage _ _ _ flag channel data hd] at ha
    injection ha with ha
    subst ha
    have : [(letters ty).1, (letters ty).2.1, (letters ty).2.2, flag] ++ leBytes 4 (12 + data.length) ++ leBytes 4 channel.toNat ++ data =
      chunk ty flag channel data := by
      rw [chunk, Nat.add_comm 12]
    first
    | rw [← this]; exact em_linkSend
    | exact em_linkSend
  · rw [C45_secured_overflow garbage _ _ _ flag channel data (by omega)] at ha
    cases ha

omit hf in
theorem em_stopTimer : TEmits f k l (stopTimer k) := by
  refine em_self.quiet fun t => ?_
  split
  · exact em_conn fun _ => by rfl
  · exact .undefined

omit hf in
theorem em_startTimer {e : TEnv} : TEmits f k l (startTimer k e) := by
  refine em_self.quiet fun t => ?_
  split
  · split
    · exact em_conn fun _ => by rfl
    · exact .throws
  · exact .undefined

omit hf in
theorem em_exit {st : TSt} : TEmits f k l (exit k st) := by
  cases st
  · exact .ret
  · exact em_stopTimer
  · exact em_stopTimer

omit hf in
theorem em_transit {target : TSt} {m : SM Srv Unit} (h : TEmits f k l m) : TEmits f k l (transit k target m) := by
  refine em_self.quiet fun t => ?_
  split
  · exact .ret
  · exact em_exit.quiet fun _ => (em_conn fun _ => by rfl).quiet fun _ => h

theorem em_release : TEmits f k l (release k) :=
  (em_conn fun _ => by rfl).quiet fun _ => (em_note_none hf.released).quiet fun _ => em_releaseId

theorem em_toInit : TEmits f k l (toInit k) := em_transit (em_release hf)

omit hf in
theorem em_receivePreaction : TEmits f k l (receivePreaction k) := em_conn fun _ => by rfl

omit hf in
theorem em_toHello {e : TEnv} : TEmits f k l (toHello k e) := em_transit (em_startTimer.quiet fun _ => em_receivePreaction)

omit hf in
theorem em_toConnected {e : TEnv} : TEmits f k l (toConnected k e) := em_transit (em_startTimer.quiet fun _ => em_receivePreaction)

theorem em_fail : TEmits f k l (fail k) := ((em_sendReleaseInd hf).quiet fun _ => em_toInit hf).mono (List.Sublist.refl _)

omit hf in
theorem em_receiveRx {e : TEnv} : TEmits f k l (receiveRx k e) := by
  refine em_self.quiet fun t => ?_
  split
  · exact Emits.lift.quiet fun x => (em_conn fun _ => by rfl).quiet fun _ => .ret
  · split
    · exact .ret
    · exact .undefined

omit hf in
theorem em_decodeHello : TEmits f k l (decodeHello k) := by
  refine em_self.quiet fun t => ?_
  split
  · exact em_conn fun _ => by rfl
  · exact (em_conn fun _ => by rfl).quiet fun _ => .throws
  · exact .lift
  · exact .undefined

theorem em_onAcceptLink {e : TEnv} : TEmits f k l (onAcceptLink k e) := by
  refine em_self.quiet fun t => ?_
  split
  · refine (em_conn fun _ => by rfl).quiet fun _ => ?_
    refine Emits.quiet ?_ fun _ => (em_note_none hf.accepted).quiet fun _ => em_toHello
    unfold allocTimer
    split
    · exact em_conn fun _ => by rfl
    · exact .throws
  · exact .ret

theorem em_onTimer : TEmits f k l (onTimer k) := by
  refine (em_conn fun _ => by rfl).quiet fun _ => em_self.quiet fun t => ?_
  split
  · exact .ret
  · exact em_toInit hf
  · exact em_fail hf

theorem em_answered {r : Res} : TEmits f k l (answered k r) := by
  cases r
  · exact em_fail hf
  · exact .ret
  · exact em_fail hf

/-- A message of the secure channel component. -/
def seen (f : TAct → Option ι) : Down → Option ι
  | .openRsp c b d => f (.sent (chunk .opn b c d))
  | .closeRsp c b d => f (.sent (chunk .clo b c d))
  | .sendReq c b d => f (.sent (chunk .msg b c d))
  | .releaseReq => none

theorem em_onReceive {e : TEnv} {m : Down} : TEmits f k (seen f m).toList (onReceive k e m) := by
  refine em_self.quiet fun t => ?_
  split
  · cases m with
    | openRsp c b d =>
      refine Emits.after ?_ fun x => em_answered hf
      refine (em_conn fun _ => by rfl).quiet fun _ => (em_note_none (hf.assigned c)).quiet fun _ => em_sendSecured (ty := .opn)
    | closeRsp c b d =>
      refine Emits.after ?_ fun x => em_answered hf
      refine em_self.quiet fun t => ?_
      split
      · exact em_sendSecured (ty := .clo)
      · exact .ret
    | sendReq c b d =>
      refine Emits.after ?_ fun x => em_answered hf
      refine em_self.quiet fun t => ?_
      split
      · exact em_sendSecured (ty := .msg)
      · exact .ret
    | releaseReq => exact (em_note_none hf.asked).quiet fun _ => em_toInit hf
  · exact .ret

omit hf in
theorem em_receiveHello {e : TEnv} (hack : f (.sent ackFrame) = none) : TEmits f k [] (receiveHello k e) := by
  refine em_receiveRx.quiet fun x => ?_
  split
  · exact .ret
  · exact .ret
  · refine em_decodeHello.quiet fun _ => ?_
    unfold sendAcknowledge
    rw [C45_acknowledge]
    refine Emits.lift.quiet' fun s a s' ha => ?_
    have ha := lift_inv ha
    injection ha with ha
    subst ha
    have := em_linkSend (f := f) (k := k) (e := e) (bytes := ackFrame)
    rw [hack] at this
    exact this

omit hf in
theorem em_forward {ty : SecType} {h : UaMessageHeader} (hup : ∀ u, f (.up u) = none) : TEmits f k [] (forward k ty h) := by
  refine em_self.quiet fun t => ?_
  cases ty with
  | msg =>
    show TEmits f k [] (if _ then _ else _)
    split
    · exact Emits.lift.quiet fun d => (em_note_none (hup _)).quiet fun _ => .ret
    · exact .ret
  | opn => exact Emits.lift.quiet fun d => (em_note_none (hup _)).quiet fun _ => .ret
  | clo =>
    show TEmits f k [] (if _ then _ else _)
    split
    · exact Emits.lift.quiet fun d => (em_note_none (hup _)).quiet fun _ => .ret
    · exact .ret
  | invalid => exact .ret

theorem em_onData {e : TEnv} (hack : f (.sent ackFrame) = none) (hup : ∀ u, f (.up u) = none) : TEmits f k [] (onData k e) := by
  refine em_self.quiet fun t => ?_
  split
  · exact .ret
  · refine (em_receiveHello hack).quiet fun x => ?_
    split
    · exact .ret
    · exact em_toConnected
    · exact em_toInit hf
  · refine Emits.quiet (l := []) ?_ fun x => ?_
    · refine em_receiveRx.quiet fun x => ?_
      split
      · exact .ret
      · exact .ret
      · exact em_self.quiet fun t => Emits.lift.quiet fun r => (em_conn fun _ => by rfl).quiet fun _ => em_forward hup
    · split
      · exact .ret
      · exact em_startTimer.quiet fun _ => em_receivePreaction
      · exact em_fail hf

end Transport

/-- The outcome of a handler. -/
theorem Emits.settled {logs : σ → Nat → List α} {f : α → Option ι} {k : Nat} {l : List ι} {m : SM σ β} {s s' : σ}
    (h : Emits logs f k l m) (hs : settle (m s) = .ok s') : Small logs f k l s s' := by
  rcases settle_ok (h.post s) hs with h | ⟨_, h⟩ <;> exact h

namespace Transport

theorem next_emits {f : TAct → Option ι} (hf : Coarse f) (hack : f (.sent ackFrame) = none) (hup : ∀ u, f (.up u) = none)
    {s s' : Srv} {e : TEnv} {v : TEv} (h : next s e v = .ok s') : ∃ k, Small tlogs f k (match v with
      | .down _ m => (seen f m).toList
      | _ => []) s s' ∧ ∀ j m, v = .down j m → k = j := by
  cases v with
  | accept =>
    have h : settle ((takeLink e >>= fun _ => allocId >>= fun r => match r with
      | none => pure ()
      | some k => onAcceptLink k e) s) = .ok s' := h
    rw [bind_run] at h
    unfold takeLink at h
    split at h
    · simp only [pure_run, andThen] at h
      rw [bind_run] at h
      unfold allocId at h
      split at h
      · rename_i r q hq
        simp only [andThen] at h
        cases r with
        | none =>
          injection h with h
          subst h
          exact ⟨0, ⟨[], ⟨(List.append_nil _).symm, fun _ _ => rfl⟩, by simp⟩, fun _ _ h => by cases h⟩
        | some k => exact ⟨k, (em_onAcceptLink hf).settled (s := { s with ids := q }) h, fun _ _ h => by cases h⟩
      · injection h with h
        subst h
        exact ⟨0, ⟨[], ⟨(List.append_nil _).symm, fun _ _ => rfl⟩, by simp⟩, fun _ _ h => by cases h⟩
      · cases h
      · cases h
    · injection h with h
      subst h
      exact ⟨0, ⟨[], ⟨(List.append_nil _).symm, fun _ _ => rfl⟩, by simp⟩, fun _ _ h => by cases h⟩
  | linkData k => exact ⟨k, (em_onData hf hack hup).settled h, fun _ _ h => by cases h⟩
  | linkError k => exact ⟨k, (em_conn fun _ => by rfl : TEmits f k [] (onError k)).settled h, fun _ _ h => by cases h⟩
  | timer k => exact ⟨k, (em_onTimer hf).settled h, fun _ _ h => by cases h⟩
  | down k m =>
    refine ⟨k, ?_, fun _ _ h => by cases h; rfl⟩
    have h : settle ((if Pool.valid k then onReceive k e m else undefined : SM Srv Unit) s) = .ok s' := h
    split at h
    · exact (em_onReceive hf).settled h
    · cases h

end Transport

/-! ## Secure channel -/

namespace Channel

open Ent

def clogs (s : Chans) (k : Nat) : List CAct := (s.objs k).log

variable {f : CAct → Option ι} {k : Nat} {l : List ι}

abbrev CEmits (f : CAct → Option ι) (k : Nat) (l : List ι) (m : SM Chans β) : Prop := Emits clogs f k l m

theorem em_self : CEmits f k l (Ent.self k) := Emits.same fun _ => rfl

theorem em_obj {g : Chan → Chan} (h : ∀ t, (g t).log = t.log) : CEmits f k l (obj k g) := by
  refine Emits.same fun s => ?_
  show clogs (s.set k (g (s.objs k))) = clogs s
  funext j
  by_cases e : j = k
  · subst e; simp only [clogs, set_at]; exact h _
  · simp only [clogs, set_other _ _ e]

theorem em_note {a : CAct} : CEmits f k (f a).toList (note k a) := by
  refine ⟨fun s => ?_⟩
  refine ⟨[a], ⟨?_, fun j hj => ?_⟩, ?_⟩
  · simp [clogs]
  · simp [clogs, set_other _ _ hj]
  · cases h : f a <;> simp [h]

theorem em_note_none {a : CAct} (h : f a = none) : CEmits f k l (note k a) := by
  have := em_note (f := f) (k := k) (a := a)
  rw [h] at this
  exact this.mono (List.nil_sublist _)

theorem em_releaseId : CEmits f k l (Ent.releaseId k) := by
  refine Emits.same fun s => ?_
  unfold Ent.releaseId
  split <;> first | trivial | rfl

/-- `f` sees only messages with data. -/
structure Coarse (f : CAct → Option ι) : Prop where
  got : ∀ m, f (.got m) = none
  opened : ∀ c t q, f (.opened c t q) = none
  asked : ∀ c, f (.releaseReq c) = none
  associated : ∀ x, f (.associated x) = none
  released : f .released = none

variable (hf : Coarse f)

theorem em_guarded {e : CEnv} {d : List UInt8} : CEmits f k l (guarded k e d) := by
  refine Emits.lift.quiet fun b => Emits.lift.quiet fun h => em_self.quiet fun t => ?_
  split
  · refine Emits.lift.quiet fun q => ?_
    split
    · exact (em_obj fun _ => by rfl).quiet fun _ => .ret
    · exact .ret
  · exact .ret

theorem guarded_value {e : CEnv} {d : List UInt8} {s s' : Chans} {r : UInt32} {b : Buf}
    (h : guarded k e d s = (.ok (some (r, b)), s')) : d.length ≤ 4096 ∧ r = mword e.mem d 8 ∧ b = ((Buf.create e.mem).append d).skip 12 := by
  by_cases hl : d.length ≤ 4096
  · rw [guarded_run _ _ _ _ hl] at h
    split at h
    · injection h with h1 h2
      injection h1 with h1
      injection h1 with h1
      injection h1 with h1 h3
      exact ⟨hl, h1.symm, h3.symm⟩
    · injection h with h1 h2
      injection h1 with h1
      cases h1
  · exfalso
    unfold guarded at h
    rw [bind_run] at h
    unfold load at h
    rw [if_neg (by simpa [maxPacketLen] using hl)] at h
    cases h

include hf

theorem em_toInit : CEmits f k l (toInit k) :=
  (em_obj fun _ => by rfl).quiet fun _ => (em_obj fun _ => by rfl).quiet fun _ => (em_note_none hf.released).quiet fun _ => em_releaseId

/-- What a message may lead to. -/
def Leads (f : CAct → Option ι) (k : Nat) (e : CEnv) (l : List ι) : CIn → Prop
  | .open c _ => ∀ d, d.length = 123 → (f (.openRsp c (UInt32.ofNat k) d)).toList.Sublist l
  | .close c _ _ => ∀ d, d.length = 40 → (f (.closeRsp c (UInt32.ofNat k) d)).toList.Sublist l
  | .message c _ d => ∀ x d', d'.length = d.length → d.length ≤ 4068 →
      (f (.up ⟨c, UInt32.ofNat k, mword e.mem d 8, x⟩ d')).toList.Sublist l
  | .send h d => ∀ d', d'.length = 12 + d.length → word d' 8 = h.requestId →
      (f (.sendReq h.connectionId (UInt32.ofNat k) d')).toList.Sublist l
  | _ => True

theorem em_answerOpen {e : CEnv} {c seq request handle lifetime : UInt32}
    (h : ∀ d, d.length = 123 → (f (.openRsp c (UInt32.ofNat k) d)).toList.Sublist l) :
    CEmits f k l (answerOpen k e c seq request handle lifetime) := by
  refine ⟨fun s => ?_⟩
  rw [answerOpen_run]
  refine ⟨[.opened c e.token seq, .openRsp c (UInt32.ofNat k) (openAnswer e (UInt32.ofNat k) e.token (s.objs k).tx request handle lifetime)],
    ⟨by simp [clogs], fun j hj => by simp only [clogs, set_other _ _ hj]⟩, ?_⟩
  have := h _ (openAnswer_length e (UInt32.ofNat k) e.token (s.objs k).tx request handle lifetime)
  rw [List.filterMap_cons, hf.opened]
  cases hx : f (.openRsp c (UInt32.ofNat k) (openAnswer e (UInt32.ofNat k) e.token (s.objs k).tx request handle lifetime)) with
  | none => simp [hx]
  | some x => rw [hx] at this; simpa [hx] using this

omit hf in
theorem em_answerClose {e : CEnv} {c request handle : UInt32}
    (h : ∀ d, d.length = 40 → (f (.closeRsp c (UInt32.ofNat k) d)).toList.Sublist l) :
    CEmits f k l (answerClose k e c request handle) := by
  refine ⟨fun s => ?_⟩
  rw [answerClose_run]
  refine ⟨[.closeRsp c (UInt32.ofNat k) (closeAnswer e (s.objs k).token (s.objs k).tx request handle)],
    ⟨by simp [clogs], fun j hj => by simp only [clogs, set_other _ _ hj]⟩, ?_⟩
  have := h _ (closeAnswer_length e (s.objs k).token (s.objs k).tx request handle)
  cases hx : f (.closeRsp c (UInt32.ofNat k) (closeAnswer e (s.objs k).token (s.objs k).tx request handle)) with
  | none => simp [hx]
  | some x => rw [hx] at this; simpa [hx] using this

omit hf in
theorem receiveOpen_ind (P : SM Chans Unit → Prop) {k : Nat} {e : CEnv} {c : UInt32} {d : List UInt8}
    (h : ∀ seq request handle lifetime, P (answerOpen k e c seq request handle lifetime))
    (hb : ∀ (α : Type) (x : Exec α) (g : α → SM Chans Unit), (∀ a, P (g a)) → P (SM.lift x >>= g)) : P (receiveOpen k e c d) := by
  rw [receiveOpen_eq]
  refine hb _ _ _ fun b => hb _ _ _ fun r => ?_
  generalize r.1.1.sequenceNumber = seq, r.1.1.requestId = request, r.1.2.requestHdr.requestHandle = handle,
    r.1.2.requestLifetime = lifetime
  exact h _ _ _ _

theorem em_receiveOpen {e : CEnv} {c : UInt32} {d : List UInt8}
    (h : ∀ d, d.length = 123 → (f (.openRsp c (UInt32.ofNat k) d)).toList.Sublist l) : CEmits f k l (receiveOpen k e c d) :=
  receiveOpen_ind (CEmits f k l) (fun _ _ _ _ => em_answerOpen hf h) fun _ _ _ h => Emits.quiet .lift h

omit hf in
theorem em_receiveClose {e : CEnv} {c : UInt32} {d : List UInt8}
    (h : ∀ d, d.length = 40 → (f (.closeRsp c (UInt32.ofNat k) d)).toList.Sublist l) : CEmits f k l (receiveClose k e c d) := by
  rw [receiveClose_eq]
  refine em_self.quiet fun t => ?_
  split
  · refine em_guarded.quiet fun g => ?_
    split
    · exact .ret
    · exact Emits.quiet .lift fun r => em_answerClose h
  · exact .ret

omit hf in
theorem em_receiveMessage {e : CEnv} {c : UInt32} {d : List UInt8} (h : ∀ x d', d'.length = d.length → d.length ≤ 4068 →
      (f (.up ⟨c, UInt32.ofNat k, mword e.mem d 8, x⟩ d')).toList.Sublist l) : CEmits f k l (receiveMessage k e c d) := by
  unfold receiveMessage
  refine em_self.quiet fun t => ?_
  split
  · refine em_guarded.quiet' fun s g s' hg => ?_
    split
    · exact .ret
    · rename_i req b
      obtain ⟨hl, hr, hb⟩ := guarded_value hg
      refine Emits.lift.quiet' fun s d' s' hd => ?_
      have hd := lift_inv hd
      subst hb hr
      obtain ⟨h1, h2⟩ := handUp_ok hd
      refine Emits.after (em_note.mono (h _ d' ?_ h1)) fun _ => .ret
      rw [h2, MsgStorage.length_memRead]
  · exact .ret

omit hf in
theorem em_receiveSend {hd : MsgHdr} {d : List UInt8} (h : ∀ d', d'.length = 12 + d.length → word d' 8 = hd.requestId →
      (f (.sendReq hd.connectionId (UInt32.ofNat k) d')).toList.Sublist l) : CEmits f k l (receiveSend k hd d) := by
  unfold receiveSend
  refine em_self.quiet fun t => ?_
  split
  · split
    · refine Emits.quiet (em_obj fun _ => by rfl) fun _ => Emits.lift.quiet' fun s d' s' hd' => ?_
      have := (encoded_cases (send_writes t.token t.tx hd.requestId d)).resolve_right (by rw [lift_inv hd']; simp)
      rw [lift_inv hd'] at this
      injection this with this
      refine em_note.mono (h d' ?_ ?_)
      · rw [this]
        simp only [List.length_append, MsgStorage.length_leBytes]
        omega
      · rw [this]
        simp only [List.append_assoc]
        exact word8 ..
    · exact .ret
  · exact .ret

omit hf in
theorem em_receiveAssociate {hd : MsgHdr} (h : f (.associated hd.sessionId) = none) : CEmits f k l (receiveAssociate k hd) := by
  unfold receiveAssociate
  refine em_self.quiet fun t => ?_
  split
  · exact Emits.quiet (em_obj fun _ => by rfl) fun _ => em_note_none h
  · exact .ret

theorem em_onReceive {e : CEnv} {m : CIn} (h : Leads f k e l m) : CEmits f k l (onReceive k e m) := by
  unfold onReceive
  refine (em_note_none (hf.got m)).quiet fun _ => em_self.quiet fun t => ?_
  split
  · exact (em_receiveOpen hf h).after fun _ => em_obj fun _ => by rfl
  · rename_i c ch d _
    exact (em_receiveClose h).after fun _ => (em_note_none (hf.asked c)).quiet fun _ => em_toInit hf
  · rename_i c ch d _
    refine (em_receiveMessage h).after fun ok => ?_
    split
    · exact .ret
    · exact (em_note_none (hf.asked c)).quiet fun _ => em_toInit hf
  · exact em_toInit hf
  · exact em_receiveAssociate (hf.associated _)
  · exact em_receiveSend h
  · exact .ret

theorem next_emits {s s' : Chans} {e : CEnv} {m : CIn} (h : ∀ k, Leads f k e l m) (hn : next s e m = .ok s') :
    ∃ k, Small clogs f k l s s' := by
  have hget : ∀ ch : UInt32, settle (Ent.get ch.toNat (onReceive ch.toNat e m) s) = .ok s' → ∃ k, Small clogs f k l s s' := by
    intro ch hc
    unfold Ent.get at hc
    split at hc
    · exact ⟨_, (em_onReceive hf (h _)).settled hc⟩
    · cases hc
  cases m with
  | «open» c d =>
    unfold next event at hn
    simp only [] at hn
    rw [bind_run] at hn
    unfold Ent.allocId at hn
    split at hn
    · rename_i r q hq
      simp only [andThen] at hn
      cases r with
      | none =>
        injection hn with hn
        subst hn
        exact ⟨0, ⟨[], ⟨(List.append_nil _).symm, fun _ _ => rfl⟩, by simp⟩⟩
      | some k => exact ⟨k, (em_onReceive hf (h k)).settled (s := { s with ids := q }) hn⟩
    · injection hn with hn
      subst hn
      exact ⟨0, ⟨[], ⟨(List.append_nil _).symm, fun _ _ => rfl⟩, by simp⟩⟩
    · cases hn
    · cases hn
  | close c ch d => exact hget ch hn
  | message c ch d => exact hget ch hn
  | released c ch => exact hget ch hn
  | associate h => exact hget _ hn
  | send h d => exact hget _ hn

end Channel

/-! ## Sessions -/

namespace Session

open Ent

def slogs (s : Sessions) (k : Nat) : List SAct := (s.objs k).log

variable {f : SAct → Option ι} {k : Nat} {l : List ι}

theorem reply_length (e : SEnv) (k : Nat) (r : SReq) : (reply e k r).length ≤ 264 := by
  cases r with
  | getEndpoints q => exact Nat.le_trans (Nat.le_of_eq (rfl : (wire (Cont.make 431 (getEndpointsRsp e q))).length = 218)) (by decide : 218 ≤ 264)
  | create q =>
    have h1 := nodeId_length (UInt32.ofNat k)
    have : (reply e k (.create q)).length = 4 + (24 + ((wire (⟨0, .numeric (UInt32.ofNat k)⟩ : NodeId)).length +
        ((wire (⟨0, .numeric (UInt32.ofNat k)⟩ : NodeId)).length + 222))) := by
      show (_ ++ (_ ++ (wire (⟨0, .numeric (UInt32.ofNat k)⟩ : NodeId) ++ (wire (⟨0, .numeric (UInt32.ofNat k)⟩ : NodeId) ++ _))) : List UInt8).length = _
      rw [List.length_append, List.length_append, List.length_append, List.length_append]
      rfl
    omega
  | activate q => exact Nat.le_trans (Nat.le_of_eq (rfl : (wire (Cont.make 470 (activateRsp e q))).length = 40)) (by decide : 40 ≤ 264)
  | close q => exact Nat.le_trans (Nat.le_of_eq (rfl : (wire (Cont.make 476 (closeRsp e q))).length = 28)) (by decide : 28 ≤ 264)
  | read q => exact Nat.le_trans (Nat.le_of_eq (rfl : (wire (Cont.make 634 (readRsp e q))).length = 36)) (by decide : 36 ≤ 264)

/-- `f` sees only answers. -/
structure Coarse (f : SAct → Option ι) : Prop where
  got : ∀ h r, f (.got h r) = none
  associate : ∀ h, f (.associate h) = none
  served : ∀ h, f (.served h) = none
  created : f .created = none
  released : f .released = none

/-- What a request may lead to. -/
def Leads (f : SAct → Option ι) (h : MsgHdr) (l : List ι) : Prop :=
  ∀ x d, d.length ≤ 264 → (f (.answer { h with sessionId := x } d)).toList.Sublist l

theorem react_adds (hf : Coarse f) {e : SEnv} {h : MsgHdr} {r : SReq} (hl : Leads f h l) (t : Sess) :
    ∃ new, (react k e h r t).log = t.log ++ new ∧ (new.filterMap f).Sublist l := by
  have hsame : ∀ d, d.length ≤ 264 → (f (.answer h d)).toList.Sublist l := fun d hd => hl h.sessionId d hd
  have one : ∀ a, f a = none → ([a].filterMap f).Sublist l := by
    intro a h
    simp [h]
  have mid : ∀ a b c, f a = none → f c = none → (f b).toList.Sublist l → ([a, b, c].filterMap f).Sublist l := by
    intro a b c h1 h2 h3
    cases hb : f b with
    | none => simp [h1, h2, hb]
    | some x => rw [hb] at h3; simpa [h1, h2, hb] using h3
  have last : ∀ a b c, f a = none → f b = none → (f c).toList.Sublist l → ([a, b, c].filterMap f).Sublist l := by
    intro a b c h1 h2 h3
    cases hb : f c with
    | none => simp [h1, h2, hb]
    | some x => rw [hb] at h3; simpa [h1, h2, hb] using h3
  have hr := reply_length e k r
  have three : ∀ (p : List SAct) a b c, p ++ [a] ++ [b] ++ [c] = p ++ [a, b, c] := by
    intro p a b c
    simp
  unfold react
  split
  · exact ⟨_, three _ _ _ _, mid _ _ _ (hf.got _ _) hf.created (hsame _ hr)⟩
  · exact ⟨_, rfl, one _ (hf.got _ _)⟩
  · exact ⟨_, three _ _ _ _, last _ _ _ (hf.got _ _) (hf.associate _) (hl _ _ hr)⟩
  · exact ⟨_, three _ _ _ _, mid _ _ _ (hf.got _ _) hf.released (hsame _ hr)⟩
  · split
    · exact ⟨_, three _ _ _ _, last _ _ _ (hf.got _ _) (hf.served _) (hsame _ hr)⟩
    · exact ⟨_, rfl, one _ (hf.got _ _)⟩
  · exact ⟨_, rfl, one _ (hf.got _ _)⟩

theorem em_onReceive (hf : Coarse f) {e : SEnv} {h : MsgHdr} {r : SReq} (hl : Leads f h l) : Emits slogs f k l (onReceive k e h r) := by
  refine ⟨fun s => ?_⟩
  obtain ⟨new, h1, h2⟩ := react_adds (k := k) (e := e) (r := r) hf hl (s.objs k)
  have hset : Small slogs f k l s (s.set k (react k e h r (s.objs k))) :=
    ⟨new, ⟨by simp only [slogs, set_at]; exact h1, fun j hj => by simp only [slogs, set_other _ _ hj]⟩, h2⟩
  rw [onReceive_run]
  split
  · unfold Ent.releaseId
    split
    · exact hset
    · exact hset
    · trivial
    · trivial
  · exact hset

theorem next_emits (hf : Coarse f) {s s' : Sessions} {m : SIn} (hl : Leads f m.hdr l) (hn : next s m = .ok s') :
    ∃ k, Small slogs f k l s s' := by
  have stay : ∃ k, Small slogs f k l s s := ⟨0, ⟨[], ⟨(List.append_nil _).symm, fun _ _ => rfl⟩, by simp⟩⟩
  have hget : ∀ (n : Nat) (r : SReq), settle (Ent.get n (onReceive n m.env m.hdr r) s) = .ok s' → ∃ k, Small slogs f k l s s' := by
    intro n r hc
    unfold Ent.get at hc
    split at hc
    · exact ⟨_, (em_onReceive hf hl).settled hc⟩
    · cases hc
  have htok : ∀ (n : NodeId) (r : SReq), settle (byToken n (fun k => onReceive k m.env m.hdr r) s) = .ok s' →
      ∃ k, Small slogs f k l s s' := by
    intro n r hc
    unfold byToken at hc
    cases hv : n.value with
    | numeric uid => simp only [hv] at hc; exact hget _ _ hc
    | _ => simp only [hv] at hc; injection hc with hc; exact hc ▸ stay
  unfold next event at hn
  cases hload : Channel.load m.env.mem m.data with
  | ok b =>
    rw [bind_ok (lift_ok hload _)] at hn
    cases hdis : dispatch b with
    | ok r =>
      rw [bind_ok (lift_ok hdis _)] at hn
      cases hr : r.1 with
      | none =>
        rw [hr] at hn
        injection hn with hn
        exact hn ▸ stay
      | some q =>
        rw [hr] at hn
        cases q with
        | getEndpoints q =>
          have hn : settle (handle m.env m.hdr (.getEndpoints q) s) = .ok s' := hn
          rw [endpoints_run] at hn
          injection hn with hn
          subst hn
          refine ⟨0, [.got m.hdr (.getEndpoints q), .answer m.hdr (reply m.env 0 (.getEndpoints q))],
            ⟨by simp [slogs], fun j hj => by simp only [slogs, set_other _ _ hj]⟩, ?_⟩
          have := hl m.hdr.sessionId _ (reply_length m.env 0 (.getEndpoints q))
          rw [List.filterMap_cons, hf.got]
          cases h : f (.answer m.hdr (reply m.env 0 (.getEndpoints q))) with
          | none => simp [h]
          | some x =>
            rw [show ({ m.hdr with sessionId := m.hdr.sessionId } : MsgHdr) = m.hdr from rfl, h] at this
            simpa [h] using this
        | create q =>
          have hn : settle ((Ent.allocId >>= fun uid => match uid with
            | none => pure ()
            | some k => onReceive k m.env m.hdr (.create q)) s) = .ok s' := hn
          rw [bind_run] at hn
          unfold Ent.allocId at hn
          split at hn
          · rename_i r q hq
            simp only [andThen] at hn
            cases r with
            | none =>
              injection hn with hn
              subst hn
              exact ⟨0, ⟨[], ⟨(List.append_nil _).symm, fun _ _ => rfl⟩, by simp⟩⟩
            | some k => exact ⟨k, (em_onReceive hf hl).settled (s := { s with ids := q }) hn⟩
          · injection hn with hn
            exact hn ▸ stay
          · cases hn
          · cases hn
        | activate q => exact htok _ _ hn
        | close q => exact htok _ _ hn
        | read q =>
          have hn : settle ((if m.hdr.sessionId = invalidSuid then pure ()
            else Ent.get m.hdr.sessionId.toNat (onReceive m.hdr.sessionId.toNat m.env m.hdr (.read q)) : SM Sessions Unit) s) = .ok s' := hn
          split at hn
          · injection hn with hn
            exact hn ▸ stay
          · exact hget _ _ hn
    | throws => rw [bind_run, hdis] at hn; injection hn with hn; exact hn ▸ stay
    | abort => rw [bind_run, hdis] at hn; cases hn
    | ub => rw [bind_run, hdis] at hn; cases hn
  | throws => rw [bind_run, hload] at hn; injection hn with hn; exact hn ▸ stay
  | abort => rw [bind_run, hload] at hn; cases hn
  | ub => rw [bind_run, hload] at hn; cases hn

end Session

end Uscada.Ua
