import Verif.UaStackProps
/-!
# What one event may touch

An event of one connection changes no other connection, a message to one channel no other channel, a request to one session no
other session.  What is sent meanwhile goes to the sender, and names no channel but its own.
-/

namespace Uscada.Ua

open SM

/-- `m` goes from state to state along `R`. -/
structure Along {σ α : Type} (R : σ → σ → Prop) (m : SM σ α) : Prop where
  post : ∀ s, SPost (R s) (fun _ => R s) (m s)

/-- `R` may be followed again and again. -/
structure Path {σ : Type} (R : σ → σ → Prop) : Prop where
  refl : ∀ s, R s s
  trans : ∀ {s s' s''}, R s s' → R s' s'' → R s s''

namespace Along

variable {σ α β : Type} {R : σ → σ → Prop}

theorem bind (hR : Path R) {m : SM σ α} {g : α → SM σ β} (h1 : Along R m) (h2 : ∀ a, Along R (g a)) : Along R (m >>= g) := by
  refine ⟨fun s => ?_⟩
  have h := h1.post s
  rw [bind_run]
  match hm : m s with
  | (.ok a, s') =>
    rw [hm] at h
    have h' := (h2 a).post s'
    simp only [andThen]
    match hg : g a s' with
    | (.ok b, s'') => rw [hg] at h'; exact hR.trans h h'
    | (.throws, s'') => rw [hg] at h'; exact hR.trans h h'
    | (.abort, s'') => trivial
    | (.ub, s'') => trivial
  | (.throws, s') => rw [hm] at h; exact h
  | (.abort, s') => trivial
  | (.ub, s') => trivial

theorem ret (hR : Path R) {a : α} : Along R (pure a : SM σ α) := ⟨fun s => hR.refl s⟩
theorem undefined : Along R (SM.undefined : SM σ α) := ⟨fun _ => trivial⟩
theorem throws (hR : Path R) : Along R (SM.throws : SM σ α) := ⟨fun s => hR.refl s⟩

theorem lift (hR : Path R) {e : Exec α} : Along R (SM.lift e : SM σ α) := by
  refine ⟨fun s => ?_⟩
  unfold SM.lift
  cases e with
  | ok a => exact hR.refl s
  | throws => exact hR.refl s
  | abort => trivial
  | ub => trivial

/-- The outcome of a handler. -/
theorem settled {m : SM σ α} {s s' : σ} (h : Along R m) (hs : settle (m s) = .ok s') : R s s' := by
  rcases settle_ok (h.post s) hs with h | ⟨_, h⟩ <;> exact h

end Along

/-! ## Connections -/

namespace Transport

/-- Channel `ch` is not named. -/
def Clear (ch : UInt32) : TAct → Prop
  | .up (.message c _ _) => c ≠ ch
  | .up (.close c _ _) => c ≠ ch
  | .up (.released c) => c ≠ ch
  | _ => True

/-- Only connection `k` changes; unless it had channel `ch`, it does not get it and does not name it. -/
def Foot (k : Nat) (ch : UInt32) (s s' : Srv) : Prop :=
  (∀ j, j ≠ k → s'.conns j = s.conns j) ∧ ((s.conns k).assoc ≠ some ch → (s'.conns k).assoc ≠ some ch ∧
    ∃ new, (s'.conns k).log = (s.conns k).log ++ new ∧ ∀ a ∈ new, Clear ch a)

variable {k : Nat} {ch : UInt32}

theorem Foot.same {s s' : Srv} (h : s'.conns = s.conns) : Foot k ch s s' := by
  refine ⟨fun j _ => by rw [h], fun ha => ⟨by rw [h]; exact ha, [], by rw [h, List.append_nil], fun _ h => nomatch h⟩⟩

theorem foot_path : Path (Foot k ch) where
  refl s := Foot.same rfl
  trans := by
    rintro s s' s'' ⟨h1, h2⟩ ⟨h3, h4⟩
    refine ⟨fun j hj => (h3 j hj).trans (h1 j hj), fun ha => ?_⟩
    obtain ⟨ha', n1, hn1, hc1⟩ := h2 ha
    obtain ⟨ha'', n2, hn2, hc2⟩ := h4 ha'
    exact ⟨ha'', n1 ++ n2, by rw [hn2, hn1, List.append_assoc], fun a ha => (List.mem_append.mp ha).elim (hc1 a) (hc2 a)⟩

abbrev Foots (k : Nat) (ch : UInt32) {α : Type} (m : SM Srv α) : Prop := Along (Foot k ch) m

theorem foot_set {s : Srv} {t : Tcp} (h : (s.conns k).assoc ≠ some ch → t.assoc ≠ some ch ∧ ∃ new, t.log = (s.conns k).log ++ new ∧ ∀ a ∈ new, Clear ch a) :
    Foot k ch s (s.set k t) := by
  refine ⟨fun j hj => if_neg hj, fun ha => ?_⟩
  have : (s.set k t).conns k = t := if_pos rfl
  rw [this]
  exact h ha

theorem ft_conn {g : Tcp → Tcp} (h : ∀ t, (g t).log = t.log ∧ (t.assoc ≠ some ch → (g t).assoc ≠ some ch)) : Foots k ch (conn k g) := by
  refine ⟨fun s => foot_set fun ha => ⟨(h _).2 ha, [], ?_, fun _ h => nomatch h⟩⟩
  rw [(h _).1, List.append_nil]

theorem ft_note {a : TAct} (h : Clear ch a) : Foots k ch (note k a) := by
  refine ⟨fun s => foot_set fun ha => ⟨ha, [a], rfl, fun b hb => ?_⟩⟩
  rw [List.mem_singleton.mp hb]
  exact h

theorem ft_self {β : Type} {g : Tcp → SM Srv β} (h : ∀ s, SPost (Foot k ch s) (fun _ => Foot k ch s) (g (s.conns k) s)) : Foots k ch (self k >>= g) := ⟨h⟩

theorem ft_self' {β : Type} {g : Tcp → SM Srv β} (h : ∀ t, Foots k ch (g t)) : Foots k ch (self k >>= g) := ⟨fun s => (h _).post s⟩

/-- What is noted is the own channel. -/
theorem ft_own {β : Type} {g : Tcp → SM Srv β} (h : ∀ t : Tcp, t.assoc ≠ some ch → Foots k ch (g t))
    (h' : ∀ s, (s.conns k).assoc = some ch → SPost (fun s' => ∀ j, j ≠ k → s'.conns j = s.conns j) (fun _ s' => ∀ j, j ≠ k → s'.conns j = s.conns j) (g (s.conns k) s)) :
    Foots k ch (self k >>= g) := by
  refine ⟨fun s => ?_⟩
  by_cases ha : (s.conns k).assoc = some ch
  · have := h' s ha
    show SPost _ _ (g (s.conns k) s)
    match hg : g (s.conns k) s with
    | (.ok b, s') => rw [hg] at this; exact ⟨this, fun h => absurd ha h⟩
    | (.throws, s') => rw [hg] at this; exact ⟨this, fun h => absurd ha h⟩
    | (.abort, _) => trivial
    | (.ub, _) => trivial
  · exact (h _ ha).post s

theorem ft_bind {α β : Type} {m : SM Srv α} {g : α → SM Srv β} (h1 : Foots k ch m) (h2 : ∀ a, Foots k ch (g a)) : Foots k ch (m >>= g) := h1.bind foot_path h2
theorem ft_ret {α : Type} {a : α} : Foots k ch (pure a) := .ret foot_path
theorem ft_lift {α : Type} {e : Exec α} : Foots k ch (SM.lift e) := .lift foot_path

theorem ft_releaseId : Foots k ch (releaseId k) := by
  refine ⟨fun s => ?_⟩
  unfold releaseId
  split
  · exact Foot.same rfl
  · exact Foot.same rfl
  · trivial
  · trivial

theorem ft_sendReleaseInd : Foots k ch (sendReleaseInd k) := by
  refine ft_own (fun t ht => ?_) fun s ha => ?_
  · split
    · exact ft_ret
    · rename_i c hc
      exact ft_note fun he => ht (by rw [hc, he])
  · rw [ha]
    exact fun j hj => if_neg hj

theorem ft_linkSend {e : TEnv} {bytes : List UInt8} : Foots k ch (linkSend k e bytes) := by
  refine ft_self' fun t => ?_
  split
  · split
    · exact ft_bind (ft_note trivial) fun _ => ft_ret
    · exact ft_ret
  · exact .undefined

theorem ft_sendSecured {e : TEnv} {a b c flag : UInt8} {channel : UInt32} {data : List UInt8} : Foots k ch (sendSecured k e a b c flag channel data) :=
  ft_bind ft_lift fun _ => ft_linkSend

theorem ft_stopTimer : Foots k ch (stopTimer k) := by
  refine ft_self' fun t => ?_
  split
  · exact ft_conn fun _ => ⟨rfl, id⟩
  · exact .undefined

theorem ft_startTimer {e : TEnv} : Foots k ch (startTimer k e) := by
  refine ft_self' fun t => ?_
  split
  · split
    · exact ft_conn fun _ => ⟨rfl, id⟩
    · exact .throws foot_path
  · exact .undefined

theorem ft_exit {st : TSt} : Foots k ch (exit k st) := by
  cases st
  · exact ft_ret
  · exact ft_stopTimer
  · exact ft_stopTimer

theorem ft_transit {target : TSt} {m : SM Srv Unit} (h : Foots k ch m) : Foots k ch (transit k target m) := by
  refine ft_self' fun t => ?_
  split
  · exact ft_ret
  · exact ft_bind ft_exit fun _ => ft_bind (ft_conn fun _ => ⟨rfl, id⟩) fun _ => h

theorem ft_release : Foots k ch (release k) :=
  ft_bind (ft_conn fun _ => ⟨rfl, fun _ h => nomatch h⟩) fun _ => ft_bind (ft_note trivial) fun _ => ft_releaseId

theorem ft_toInit : Foots k ch (toInit k) := ft_transit ft_release

theorem ft_receivePreaction : Foots k ch (receivePreaction k) := ft_conn fun _ => ⟨rfl, id⟩

theorem ft_toHello {e : TEnv} : Foots k ch (toHello k e) := ft_transit (ft_bind ft_startTimer fun _ => ft_receivePreaction)

theorem ft_toConnected {e : TEnv} : Foots k ch (toConnected k e) := ft_transit (ft_bind ft_startTimer fun _ => ft_receivePreaction)

theorem ft_fail : Foots k ch (fail k) := ft_bind ft_sendReleaseInd fun _ => ft_toInit

theorem ft_receiveRx {e : TEnv} : Foots k ch (receiveRx k e) := by
  refine ft_self' fun t => ?_
  split
  · exact ft_bind ft_lift fun x => ft_bind (ft_conn fun _ => ⟨rfl, id⟩) fun _ => ft_ret
  · split
    · exact ft_ret
    · exact .undefined

theorem ft_decodeHello : Foots k ch (decodeHello k) := by
  refine ft_self' fun t => ?_
  split
  · exact ft_conn fun _ => ⟨rfl, id⟩
  · exact ft_bind (ft_conn fun _ => ⟨rfl, id⟩) fun _ => .throws foot_path
  · exact ft_lift
  · exact .undefined

theorem ft_onAcceptLink {e : TEnv} : Foots k ch (onAcceptLink k e) := by
  refine ft_self' fun t => ?_
  split
  · refine ft_bind (ft_conn fun _ => ⟨rfl, id⟩) fun _ => ft_bind ?_ fun _ => ft_bind (ft_note trivial) fun _ => ft_toHello
    unfold allocTimer
    split
    · exact ft_conn fun _ => ⟨rfl, id⟩
    · exact .throws foot_path
  · exact ft_ret

theorem ft_onTimer : Foots k ch (onTimer k) := by
  refine ft_bind (ft_conn fun _ => ⟨rfl, id⟩) fun _ => ft_self' fun t => ?_
  split
  · exact ft_ret
  · exact ft_toInit
  · exact ft_fail

theorem ft_answered {r : Res} : Foots k ch (answered k r) := by
  cases r <;> first | exact ft_ret | exact ft_fail

theorem ft_onReceive {e : TEnv} {m : Down} (hm : ∀ f d, m ≠ .openRsp ch f d) : Foots k ch (onReceive k e m) := by
  refine ft_self' fun t => ?_
  split
  · cases m with
    | openRsp c b d =>
      have hc : c ≠ ch := fun h => hm b d (by rw [h])
      refine ft_bind ?_ fun x => ft_answered
      exact ft_bind (ft_conn fun _ => ⟨rfl, fun _ h => hc (Option.some.inj h)⟩) fun _ => ft_bind (ft_note trivial) fun _ => ft_sendSecured
    | closeRsp c b d =>
      refine ft_bind ?_ fun x => ft_answered
      refine ft_self' fun t => ?_
      split
      · exact ft_sendSecured
      · exact ft_ret
    | sendReq c b d =>
      refine ft_bind ?_ fun x => ft_answered
      refine ft_self' fun t => ?_
      split
      · exact ft_sendSecured
      · exact ft_ret
    | releaseReq => exact ft_bind (ft_note trivial) fun _ => ft_toInit
  · exact ft_ret

theorem ft_receiveHello {e : TEnv} : Foots k ch (receiveHello k e) := by
  refine ft_bind ft_receiveRx fun x => ?_
  split
  · exact ft_ret
  · exact ft_ret
  · exact ft_bind ft_decodeHello fun _ => ft_bind ft_lift fun _ => ft_linkSend

/-- Nothing but connection `k` changes. -/
def Alone (k : Nat) (s s' : Srv) : Prop := ∀ j, j ≠ k → s'.conns j = s.conns j

theorem alone_path : Path (Alone k) := ⟨fun _ _ _ => rfl, fun h1 h2 j hj => (h2 j hj).trans (h1 j hj)⟩

theorem al_note {a : TAct} : Along (Alone k) (note k a) := ⟨fun _ _ hj => if_neg hj⟩

theorem ft_forward {ty : SecType} {h : UaMessageHeader} : Foots k ch (forward k ty h) := by
  refine ft_own (fun t ht => ?_) fun s ha => ?_
  · cases ty with
    | msg =>
      show Foots k ch (if _ then _ else _)
      split
      · rename_i hc
        exact ft_bind ft_lift fun d => ft_bind (ft_note fun he => ht (by rw [hc, he])) fun _ => ft_ret
      · exact ft_ret
    | opn => exact ft_bind ft_lift fun d => ft_bind (ft_note trivial) fun _ => ft_ret
    | clo =>
      show Foots k ch (if _ then _ else _)
      split
      · rename_i hc
        exact ft_bind ft_lift fun d => ft_bind (ft_note fun he => ht (by rw [hc, he])) fun _ => ft_ret
      · exact ft_ret
    | invalid => exact ft_ret
  · have key : ∀ {e : Exec (List UInt8)} {f : List UInt8 → TAct},
        Along (Alone k) ((SM.lift e : SM Srv (List UInt8)) >>= fun d => note k (f d) >>= fun _ => (pure Res.done : SM Srv Res)) :=
      (Along.lift alone_path).bind alone_path fun d => al_note.bind alone_path fun _ => .ret alone_path
    cases ty with
    | msg =>
      show SPost (Alone k s) (fun _ => Alone k s) ((if _ then _ else _ : SM Srv Res) s)
      split
      · exact key.post s
      · exact alone_path.refl s
    | opn => exact key.post s
    | clo =>
      show SPost (Alone k s) (fun _ => Alone k s) ((if _ then _ else _ : SM Srv Res) s)
      split
      · exact key.post s
      · exact alone_path.refl s
    | invalid => exact alone_path.refl s

theorem ft_onData {e : TEnv} : Foots k ch (onData k e) := by
  refine ft_self' fun t => ?_
  split
  · exact ft_ret
  · refine ft_bind ft_receiveHello fun x => ?_
    split
    · exact ft_ret
    · exact ft_toConnected
    · exact ft_toInit
  · refine ft_bind ?_ fun x => ?_
    · refine ft_bind ft_receiveRx fun x => ?_
      split
      · exact ft_ret
      · exact ft_ret
      · exact ft_self' fun t => ft_bind ft_lift fun r => ft_bind (ft_conn fun _ => ⟨rfl, id⟩) fun _ => ft_forward
    · split
      · exact ft_ret
      · exact ft_bind ft_startTimer fun _ => ft_receivePreaction
      · exact ft_fail

/-- The connection an event is about. -/
def subject : TEv → Option Nat
  | .accept => none
  | .linkData j => some j
  | .linkError j => some j
  | .timer j => some j
  | .down j _ => some j

/-- An event of another connection: connection `k`, which is in use, does not change, and one other connection does. -/
theorem next_foot {m : Nat → Mem} {evs : List (TEnv × TEv)} {s s' : Srv} (h : Srv.Reach m evs s) (hk : Pool.valid k) (hst : (s.conns k).st ≠ .init)
    {e : TEnv} {v : TEv} (hp : Possible s v) (hv : subject v ≠ some k) (ho : ∀ j f d, v ≠ .down j (.openRsp ch f d)) (hn : next s e v = .ok s') :
    ∃ j, j ≠ k ∧ (Pool.valid j ∨ s'.conns = s.conns) ∧ Foot j ch s s' := by
  have stay : ∀ {t : Srv}, t.conns = s.conns → ∃ j, j ≠ k ∧ (Pool.valid j ∨ t.conns = s.conns) ∧ Foot j ch s t := fun h => ⟨k + 1, by omega, .inr h, Foot.same h⟩
  have hne : ∀ {j}, some j ≠ some k → j ≠ k := fun h he => h (by rw [he])
  cases v with
  | accept =>
    have hn : settle ((takeLink e >>= fun _ => allocId >>= fun r => match r with
      | none => pure ()
      | some k => onAcceptLink k e) s) = .ok s' := hn
    obtain ⟨l, hf, -, hnl, -⟩ := reach_live h hk hst
    unfold takeLink at hn
    split at hn
    · rw [bind_ok (pure_run _ _)] at hn
      cases l with
      | nil =>
        have : allocId s = (.ok none, s) := by simp only [allocId, hf.alloc_nil]
        rw [bind_ok this] at hn
        injection hn with hn
        exact stay (by rw [hn])
      | cons j l =>
        obtain ⟨q, hq, -⟩ := hf.alloc_cons
        have : allocId s = (.ok (some j), { s with ids := q }) := by simp only [allocId, hq]
        rw [bind_ok this] at hn
        exact ⟨j, fun he => hnl (by rw [he]; exact List.mem_cons_self), .inl (hf.ids j List.mem_cons_self), (ft_onAcceptLink (ch := ch)).settled (s := { s with ids := q }) hn⟩
    · injection hn with hn
      exact stay (by rw [hn])
  | linkData j => exact ⟨j, hne hv, .inl hp.1, ft_onData.settled hn⟩
  | linkError j => exact ⟨j, hne hv, .inl hp.1, (ft_conn fun _ => ⟨rfl, id⟩ : Foots j ch (onError j)).settled hn⟩
  | timer j => exact ⟨j, hne hv, .inl hp.1, ft_onTimer.settled hn⟩
  | down j x =>
    have hn : settle ((if Pool.valid j then onReceive j e x else undefined : SM Srv Unit) s) = .ok s' := hn
    split at hn
    · next hj =>
      refine ⟨j, hne hv, .inl hj, ?_⟩
      exact (ft_onReceive fun f d he => ho j f d (by rw [he])).settled hn
    · cases hn

end Transport

/-! ## Channels -/

namespace Channel

open Ent

/-- What channel `k` sends goes to connection `c`, and names channel `k`. -/
def Back (k : Nat) (c : UInt32) : CAct → Prop
  | .openRsp c' ch _ => c' = c ∧ ch = UInt32.ofNat k
  | .closeRsp c' ch _ => c' = c ∧ ch = UInt32.ofNat k
  | .sendReq c' ch _ => c' = c ∧ ch = UInt32.ofNat k
  | .up h _ => h.connectionId = c ∧ h.secureChannelId = UInt32.ofNat k
  | .releaseReq c' => c' = c
  | _ => True

/-- Only channel `k` changes, and it answers to `c`. -/
def Foot (k : Nat) (c : UInt32) (s s' : Chans) : Prop :=
  (∀ j, j ≠ k → s'.objs j = s.objs j) ∧ ∃ new, (s'.objs k).log = (s.objs k).log ++ new ∧ ∀ a ∈ new, Back k c a

variable {k : Nat} {c : UInt32}

theorem Foot.same {s s' : Chans} (h : s'.objs = s.objs) : Foot k c s s' :=
  ⟨fun j _ => by rw [h], [], by rw [h, List.append_nil], fun _ h => nomatch h⟩

theorem foot_path : Path (Foot k c) where
  refl s := Foot.same rfl
  trans := by
    rintro s s' s'' ⟨h1, n1, hn1, hc1⟩ ⟨h3, n2, hn2, hc2⟩
    exact ⟨fun j hj => (h3 j hj).trans (h1 j hj), n1 ++ n2, by rw [hn2, hn1, List.append_assoc], fun a ha => (List.mem_append.mp ha).elim (hc1 a) (hc2 a)⟩

abbrev Foots (k : Nat) (c : UInt32) {α : Type} (m : SM Chans α) : Prop := Along (Foot k c) m

theorem ft_bind {α β : Type} {m : SM Chans α} {g : α → SM Chans β} (h1 : Foots k c m) (h2 : ∀ a, Foots k c (g a)) : Foots k c (m >>= g) := h1.bind foot_path h2
theorem ft_ret {α : Type} {a : α} : Foots k c (pure a) := .ret foot_path
theorem ft_lift {α : Type} {e : Exec α} : Foots k c (SM.lift e) := .lift foot_path
theorem ft_self {β : Type} {g : Chan → SM Chans β} (h : ∀ t, Foots k c (g t)) : Foots k c (Ent.self k >>= g) := ⟨fun s => (h _).post s⟩

theorem ft_obj {g : Chan → Chan} (h : ∀ t, (g t).log = t.log) : Foots k c (obj k g) := by
  refine ⟨fun s => ⟨fun j hj => if_neg hj, [], ?_, fun _ h => nomatch h⟩⟩
  show ((s.set k (g (s.objs k))).objs k).log = _
  rw [set_at, h, List.append_nil]

theorem ft_note {a : CAct} (h : Back k c a) : Foots k c (note k a) := by
  refine ⟨fun s => ⟨fun j hj => if_neg hj, [a], ?_, fun b hb => by rw [List.mem_singleton.mp hb]; exact h⟩⟩
  show ((s.set k _).objs k).log = _
  rw [set_at]

theorem ft_releaseId : Foots k c (Ent.releaseId k) := by
  refine ⟨fun s => ?_⟩
  unfold Ent.releaseId
  split
  · exact Foot.same rfl
  · exact Foot.same rfl
  · trivial
  · trivial

theorem ft_guarded {e : CEnv} {d : List UInt8} : Foots k c (guarded k e d) := by
  refine ft_bind ft_lift fun b => ft_bind ft_lift fun h => ft_self fun t => ?_
  split
  · refine ft_bind ft_lift fun q => ?_
    split
    · exact ft_bind (ft_obj fun _ => rfl) fun _ => ft_ret
    · exact ft_ret
  · exact ft_ret

theorem ft_toInit : Foots k c (toInit k) :=
  ft_bind (ft_obj fun _ => rfl) fun _ => ft_bind (ft_obj fun _ => rfl) fun _ => ft_bind (ft_note trivial) fun _ => ft_releaseId

theorem ft_receiveOpen {e : CEnv} {d : List UInt8} : Foots k c (receiveOpen k e c d) :=
  ft_bind ft_lift fun _ => ft_bind ft_lift fun _ => ft_bind (ft_obj fun _ => rfl) fun _ => ft_bind (ft_note trivial) fun _ => ft_self fun _ =>
    ft_bind (ft_obj fun _ => rfl) fun _ => ft_bind ft_lift fun _ => ft_note ⟨rfl, rfl⟩

theorem ft_receiveClose {e : CEnv} {d : List UInt8} : Foots k c (receiveClose k e c d) := by
  refine ft_self fun t => ?_
  split
  · refine ft_bind ft_guarded fun g => ?_
    cases g with
    | none => exact ft_ret
    | some g => exact ft_bind ft_lift fun _ => ft_self fun _ => ft_bind (ft_obj fun _ => rfl) fun _ => ft_bind ft_lift fun _ => ft_note ⟨rfl, rfl⟩
  · exact ft_ret

theorem ft_receiveMessage {e : CEnv} {d : List UInt8} : Foots k c (receiveMessage k e c d) := by
  refine ft_self fun t => ?_
  split
  · refine ft_bind ft_guarded fun g => ?_
    cases g with
    | none => exact ft_ret
    | some g => exact ft_bind ft_lift fun _ => ft_bind (ft_note ⟨rfl, rfl⟩) fun _ => ft_ret
  · exact ft_ret

theorem ft_receiveSend {h : MsgHdr} {d : List UInt8} (hc : h.connectionId = c) : Foots k c (receiveSend k h d) := by
  refine ft_self fun t => ?_
  split
  · split
    · exact ft_bind (ft_obj fun _ => rfl) fun _ => ft_bind ft_lift fun _ => ft_note ⟨hc, rfl⟩
    · exact ft_ret
  · exact ft_ret

theorem ft_receiveAssociate {h : MsgHdr} : Foots k c (receiveAssociate k h) := by
  refine ft_self fun t => ?_
  split
  · exact ft_bind (ft_obj fun _ => rfl) fun _ => ft_note trivial
  · exact ft_ret

/-- The connection a message comes from. -/
def origin : CIn → UInt32
  | .open c _ => c
  | .close c _ _ => c
  | .message c _ _ => c
  | .released c _ => c
  | .associate h => h.connectionId
  | .send h _ => h.connectionId

theorem ft_onReceive {e : CEnv} {m : CIn} : Foots k (origin m) (onReceive k e m) := by
  refine ft_bind (ft_note trivial) fun _ => ft_self fun t => ?_
  split
  · exact ft_bind ft_receiveOpen fun _ => ft_obj fun _ => rfl
  · exact ft_bind ft_receiveClose fun _ => ft_bind (ft_note rfl) fun _ => ft_toInit
  · refine ft_bind ft_receiveMessage fun ok => ?_
    split
    · exact ft_ret
    · exact ft_bind (ft_note rfl) fun _ => ft_toInit
  · exact ft_toInit
  · exact ft_receiveAssociate
  · exact ft_receiveSend rfl
  · exact ft_ret

/-- A message to another channel, or one that opens a channel: channel `k`, which is open, does not change, and one other does. -/
theorem next_foot {u : Nat → UInt32 × UInt32} {evs : List (CEnv × CIn)} {s s' : Chans} (h : Reach u evs s) (hk : Pool.valid k) (ho : owner (s.objs k).log ≠ none)
    {e : CEnv} {m : CIn} (hm : ∀ ch, target m = some ch → ch.toNat ≠ k) (hn : next s e m = .ok s') : ∃ j, j ≠ k ∧ Foot j (origin m) s s' := by
  have hget : ∀ ch : UInt32, target m = some ch → settle (Ent.get ch.toNat (onReceive ch.toNat e m) s) = .ok s' → ∃ j, j ≠ k ∧ Foot j (origin m) s s' := by
    intro ch hc hn
    unfold Ent.get at hn
    split at hn
    · exact ⟨_, hm ch hc, ft_onReceive.settled hn⟩
    · cases hn
  cases m with
  | «open» c d =>
    have hn : settle ((allocId >>= fun r => match r with
      | none => pure ()
      | some k => onReceive k e (.open c d)) s) = .ok s' := hn
    obtain ⟨l, hf, hg⟩ := reach_inv (A := False) h False.elim
    cases l with
    | nil =>
      have : allocId s = (.ok none, s) := by simp only [allocId, hf.alloc_nil]
      rw [bind_ok this] at hn
      injection hn with hn
      exact ⟨k + 1, by omega, Foot.same (by rw [hn])⟩
    | cons j l =>
      obtain ⟨q, -, hq⟩ := alloc_run hf
      rw [bind_ok hq] at hn
      exact ⟨j, fun he => ho ((hg k hk).1 (by rw [he]; exact List.mem_cons_self)).owner, (ft_onReceive (m := .open c d)).settled (s := { s with ids := q }) hn⟩
  | close c ch d => exact hget ch rfl hn
  | message c ch d => exact hget ch rfl hn
  | released c ch => exact hget ch rfl hn
  | associate h => exact hget _ rfl hn
  | send h d => exact hget _ rfl hn

end Channel

/-! ## Sessions -/

namespace Session

open Ent

/-- What is sent goes the way the request came. -/
def Back (h : MsgHdr) : SAct → Prop
  | .answer h' _ => h'.connectionId = h.connectionId ∧ h'.secureChannelId = h.secureChannelId
  | .associate h' => h'.connectionId = h.connectionId ∧ h'.secureChannelId = h.secureChannelId
  | _ => True

/-- Log of session `k` behind a request. -/
theorem react_back (k : Nat) (e : SEnv) (h : MsgHdr) (r : SReq) (t : Sess) :
    ∃ new, (react k e h r t).log = t.log ++ .got h r :: new ∧ ∀ a ∈ new, Back h a := by
  have three : ∀ (p : List SAct) a b c, p ++ [a] ++ [b] ++ [c] = p ++ a :: [b, c] := by
    intro p a b c
    simp
  have two : ∀ {a b : SAct}, Back h a → Back h b → ∀ x ∈ [a, b], Back h x := fun ha hb x hx => by
    rcases List.mem_cons.mp hx with rfl | hx
    · exact ha
    · rw [List.mem_singleton.mp hx]
      exact hb
  unfold react
  split
  · exact ⟨_, three _ _ _ _, two ⟨rfl, rfl⟩ trivial⟩
  · exact ⟨[], rfl, fun _ h => nomatch h⟩
  · exact ⟨_, three _ _ _ _, two ⟨rfl, rfl⟩ ⟨rfl, rfl⟩⟩
  · exact ⟨_, three _ _ _ _, two ⟨rfl, rfl⟩ trivial⟩
  · split
    · exact ⟨_, three _ _ _ _, two trivial ⟨rfl, rfl⟩⟩
    · exact ⟨[], rfl, fun _ h => nomatch h⟩
  · exact ⟨[], rfl, fun _ h => nomatch h⟩

/-- A message touches one session (0 stands for none); what it sends goes back the way the message came; only a free session is created. -/
def Foot (m : SIn) (s s' : Sessions) : Prop :=
  ∃ k, (∀ j, j ≠ k → s'.objs j = s.objs j) ∧ (∃ new, (s'.objs k).log = (s.objs k).log ++ new ∧ ∀ a ∈ new, Back m.hdr a) ∧
    (k = 0 ∨ ∃ r, s'.objs k = react k m.env m.hdr r (s.objs k) ∧ ∀ q, r = .create q → isOpen (s.objs k).log = false)

theorem next_foot {evs : List SIn} {s s' : Sessions} (h : Reach evs s) {m : SIn} (hn : next s m = .ok s') : Foot m s s' := by
  have hsame : ∀ {r : Exec Unit}, settle (r, s) = .ok s' → Foot m s s' := by
    intro r hset
    cases r <;> simp only [settle, Exec.ok.injEq, reduceCtorEq] at hset <;>
      exact ⟨0, fun j _ => by rw [hset], ⟨[], by rw [hset, List.append_nil], fun _ h => nomatch h⟩, .inl rfl⟩
  have hset : ∀ (k : Nat) (r : SReq), (∀ q, r = .create q → isOpen (s.objs k).log = false) → (∀ j, s'.objs j = (s.set k (react k m.env m.hdr r (s.objs k))).objs j) →
      Foot m s s' := by
    intro k r hr he
    have hk : s'.objs k = react k m.env m.hdr r (s.objs k) := by rw [he, set_at]
    obtain ⟨new, h1, h2⟩ := react_back k m.env m.hdr r (s.objs k)
    exact ⟨k, fun j hj => by rw [he, set_other _ _ hj], ⟨_, by rw [hk, h1], fun a ha => (List.mem_cons.mp ha).elim (fun h => by rw [h]; trivial) (h2 a)⟩,
      .inr ⟨r, hk, hr⟩⟩
  have hget : ∀ (uid : UInt32) (r : SReq), (∀ q, r ≠ .create q) → settle (Ent.get uid.toNat (onReceive uid.toNat m.env m.hdr r) s) = .ok s' → Foot m s s' := by
    intro uid r hr hc
    unfold Ent.get at hc
    split at hc
    · rw [onReceive_run] at hc
      refine hset uid.toNat r (fun q hq => absurd hq (hr q)) fun j => ?_
      split at hc
      · unfold releaseId at hc
        split at hc <;> simp only [settle, Exec.ok.injEq, reduceCtorEq] at hc <;> rw [← hc]
      · injection hc with hc
        rw [← hc]
    · cases hc
  have htok : ∀ (n : NodeId) (r : SReq), (∀ q, r ≠ .create q) → settle (byToken n (fun k => onReceive k m.env m.hdr r) s) = .ok s' → Foot m s s' := by
    intro n r hr hc
    unfold byToken at hc
    cases hv : n.value with
    | numeric uid => simp only [hv] at hc; exact hget _ _ hr hc
    | _ => simp only [hv] at hc; exact hsame (r := .ok ()) hc
  unfold next event at hn
  cases hload : Channel.load m.env.mem m.data with
  | throws => rw [bind_run, hload] at hn; exact hsame (r := .throws) hn
  | abort => rw [bind_run, hload] at hn; cases hn
  | ub => rw [bind_run, hload] at hn; cases hn
  | ok b =>
    rw [bind_ok (lift_ok hload _)] at hn
    cases hdis : dispatch b with
    | throws => rw [bind_run, hdis] at hn; exact hsame (r := .throws) hn
    | abort => rw [bind_run, hdis] at hn; cases hn
    | ub => rw [bind_run, hdis] at hn; cases hn
    | ok r =>
      rw [bind_ok (lift_ok hdis _)] at hn
      cases hr : r.1 with
      | none =>
        rw [hr] at hn
        exact hsame (r := .ok ()) hn
      | some q =>
        rw [hr] at hn
        have hn : settle (handle m.env m.hdr q s) = .ok s' := hn
        cases q with
        | getEndpoints q =>
          rw [endpoints_run] at hn
          injection hn with hn
          refine ⟨0, fun j hj => by rw [← hn, set_other _ _ hj], ⟨[.got m.hdr (.getEndpoints q), .answer m.hdr (reply m.env 0 (.getEndpoints q))], ?_, fun a ha => ?_⟩, .inl rfl⟩
          · rw [← hn, set_at]
            simp
          · rcases List.mem_cons.mp ha with rfl | ha
            · trivial
            · rw [List.mem_singleton.mp ha]
              exact ⟨rfl, rfl⟩
        | create q =>
          change settle ((allocId >>= _) s) = _ at hn
          obtain ⟨l, hfree, hgood⟩ := reach_inv h
          cases l with
          | nil =>
            have : allocId s = (.ok none, s) := by simp only [allocId, hfree.alloc_nil]
            rw [bind_ok this] at hn
            exact hsame (r := .ok ()) hn
          | cons j l =>
            obtain ⟨ids, -, hal⟩ := alloc_run hfree
            rw [bind_ok hal] at hn
            change settle (onReceive j m.env m.hdr (.create q) _) = _ at hn
            rw [onReceive_run] at hn
            have hidle := (hgood j (hfree.ids j (by simp))).1 (by simp)
            have hd : dies (s.objs j) (.create q) = false := by simp only [dies, hidle.st]
            change settle (if dies (s.objs j) (.create q) = true then _ else _) = _ at hn
            rw [if_neg (by simp [hd])] at hn
            injection hn with hn
            exact hset j (.create q) (fun _ _ => hidle.isOpen) fun i => by rw [← hn]; rfl
        | activate q => exact htok _ _ (fun q h => by cases h) hn
        | close q => exact htok _ _ (fun q h => by cases h) hn
        | read q =>
          change settle ((if m.hdr.sessionId = invalidSuid then pure () else Ent.get _ _ : SM Sessions Unit) s) = _ at hn
          by_cases hi : m.hdr.sessionId = invalidSuid
          · rw [if_pos hi] at hn
            exact hsame (r := .ok ()) hn
          · rw [if_neg hi] at hn
            exact hget _ _ (fun q h => by cases h) hn

end Session

end Uscada.Ua
